/-
Execution model of the numba loops of harmonica.

Every forward model of the package is compiled twice from the same Python function: once with
`jit(nopython=True)` and once with `jit(nopython=True, parallel=True)`, in which the outer
`for i in prange(n)` loop is distributed over threads
(src/harmonica/_forward/point.py 448-463, prisms/gravity.py 543-545, prisms/magnetic.py end,
dipole.py end, tesseroid_gravity.py 442-452, prisms/layer.py end, _equivalent_sources/utils.py end).

We model one `prange` iteration as the list of its accesses to the shared output arrays, at
load/store granularity: `out[c] += v` is `load c` (read the cell into the private register)
followed by `store c v` (write register + v); `out[c] = v` is `put c v`; `out[c] *= k` is `load c`
followed by `apply c (· * k)`.
The number type `F` is abstract and its addition is arbitrary (not assumed associative or
commutative), so that the results below are about bitwise equality.

The progress bar (`progress_proxy.update(1)`), which the loop does not read, is in Verif/Progress.
-/
namespace Verif.Engine

/-- One access of a loop iteration to a cell `c` of the shared output memory.
Model of `out[i] += ...` in the jitted loops, e.g. _forward/point.py 388-398. -/
inductive Op (C F : Type) where
  /-- read the cell into the private register (first half of `out[c] += v`) -/
  | load (c : C)
  /-- write `register + v` to the cell (second half of `out[c] += v`) -/
  | store (c : C) (v : F)
  /-- plain assignment `out[c] = v` -/
  | put (c : C) (v : F)
  /-- write `f register` to the cell (second half of `out[c] *= k`) -/
  | apply (c : C) (f : F → F)

/-- The cell accessed by an operation.
Part of the model of _forward/point.py 388-398 and the other loops. -/
def Op.cell {C F : Type} : Op C F → C
  | .load c => c
  | .store c _ => c
  | .put c _ => c
  | .apply c _ => c

variable {C F : Type} [DecidableEq C] [Add F]

/-- Effect of one operation on the shared memory and the private register.
Part of the model of _forward/point.py 388-398 and the other loops. -/
def Op.exec (op : Op C F) (s : (C → F) × F) : (C → F) × F :=
  match op with
  | .load c => (s.1, s.1 c)
  | .store c v => (fun c' => if c' = c then s.2 + v else s.1 c', s.2)
  | .put c v => (fun c' => if c' = c then v else s.1 c', s.2)
  | .apply c f => (fun c' => if c' = c then f s.2 else s.1 c', s.2)

/-- A whole iteration run without interruption.
One pass of the body of a loop, e.g. _forward/point.py 389-398. -/
def runOps (ops : List (Op C F)) (s : (C → F) × F) : (C → F) × F :=
  ops.foldl (fun s op => op.exec s) s

/-- The statement `out[c] += v`. e.g. _forward/point.py 390-398. -/
def accum (c : C) (v : F) : List (Op C F) := [.load c, .store c v]

/-- The statements `out_a[i] += v.1; out_b[i] += v.2.1; out_c[i] += v.2.2` on three arrays.
_forward/dipole.py 342-344, _forward/prisms/magnetic.py 333-335. -/
def accum3 (i : Nat) (v : F × F × F) : List (Op (Fin 3 × Nat) F) :=
  accum (0, i) v.1 ++ accum (1, i) v.2.1 ++ accum (2, i) v.2.2

/-- Serial execution of `for i in range(n): prog i` (`r0` is the initial content of the register,
which is scratch).
A jitted loop without `parallel=True`, e.g. _forward/point.py 388 compiled at 452-454. -/
def runSerial (n : Nat) (prog : Nat → List (Op C F)) (r0 : F) (mem : C → F) : C → F :=
  (List.range n).foldl (fun mem i => (runOps (prog i) (mem, r0)).1) mem

/-- State of a parallel execution: shared memory, and for each iteration its private register and
its program counter. A loop on `prange`, e.g. _forward/point.py 388. -/
structure PState (C F : Type) where
  mem : C → F
  reg : Nat → F
  pc : Nat → Nat

/-- Iteration `i` executes its next operation (nothing happens if it is finished).
A loop on `prange`, e.g. _forward/point.py 388. -/
def tick (prog : Nat → List (Op C F)) (s : PState C F) (i : Nat) : PState C F :=
  match (prog i)[s.pc i]? with
  | none => s
  | some op =>
    let r := op.exec (s.mem, s.reg i)
    { mem := r.1
      reg := fun j => if j = i then r.2 else s.reg j
      pc := fun j => if j = i then s.pc i + 1 else s.pc j }

/-- Parallel execution under a schedule: the sequence of iteration numbers that are given a turn.
A loop on `prange` compiled with `parallel=True`, e.g. _forward/point.py 388, 450-454. -/
def runSchedule (prog : Nat → List (Op C F)) (r0 : F) (mem : C → F) (sched : List Nat) : C → F :=
  (sched.foldl (tick prog) { mem := mem, reg := fun _ => r0, pc := fun _ => 0 }).mem

/-- A schedule of `n` iterations is complete when it only runs these iterations and gives each one
at least as many turns as it has operations. Every interleaving of the threads is of this kind.
A loop on `prange` runs all its iterations to the end (numba; e.g. _forward/point.py 388). -/
def Complete (n : Nat) (prog : Nat → List (Op C F)) (sched : List Nat) : Prop :=
  (∀ i ∈ sched, i < n) ∧ ∀ i < n, (prog i).length ≤ sched.count i

/-- How a loop is run: `parallel=False`, or `parallel=True` with a given interleaving.
The argument `parallel`, e.g. _forward/point.py 264-278. -/
inductive Mode where
  | serial
  | parallel (sched : List Nat)

/-- `mode` can run `n` iterations of at most `k` operations each: a parallel schedule only runs the
`n` iterations and gives each one at least `k` turns. Turns given to a finished iteration do
nothing, so every interleaving of the threads can be extended to one of this kind.
Convention for a loop on `prange` that runs to the end (e.g. _forward/point.py 388). -/
def Mode.Full (n k : Nat) : Mode → Prop
  | .serial => True
  | .parallel sched => (∀ i ∈ sched, i < n) ∧ ∀ i < n, k ≤ sched.count i

/-- Run a loop of `n` iterations in the given mode. e.g. _forward/point.py 388-398. -/
def run (mode : Mode) (n : Nat) (prog : Nat → List (Op C F)) (r0 : F) (mem : C → F) : C → F :=
  match mode with
  | .serial => runSerial n prog r0 mem
  | .parallel sched => runSchedule prog r0 mem sched

end Verif.Engine
