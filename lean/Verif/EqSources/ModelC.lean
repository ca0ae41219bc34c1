import Verif.EqSources.Spec

/-!
Model of an estimator object over its life: assignments to its parameters and calls of its methods
in any order.
-/

namespace Verif.EqSources
open Verif.Forward Verif.Engine

/-- An assignment to a parameter of an `EquivalentSources` or `EquivalentSourcesGB`, directly or with
`set_params` of scikit-learn. The checks of `__init__` are not repeated. `parallel` and
`random_state` are part of the calls (see `Deed`). cartesian.py 184-191,
gradient_boosted.py 139-140. -/
inductive Assign where
  | damping (v : Option ℝ)
  | points (v : Option Coords)
  | depth (v : StrNum)
  | block_size (v : Option (ℝ × ℝ))
  | dtype (v : DType)
  | window_size (v : StrNum)

/-- The parameters after an assignment. cartesian.py 184-191, gradient_boosted.py 139-140. -/
def Assign.set (P : Params) : Assign → Params
  | .damping v => { P with damping := v }
  | .points v => { P with points := v }
  | .depth v => { P with depth := v }
  | .block_size v => { P with block_size := v }
  | .dtype v => { P with dtype := v }
  | .window_size v => { P with window_size := v }

/-- An estimator: its parameters and its fitted attributes. cartesian.py 184-191, 268-281. -/
structure Estimator where
  params : Params
  state : State := {}

/-- What a program does with an estimator. The schedules of the loops and the shuffles of the
windows are part of the calls. cartesian.py 193-383, gradient_boosted.py 142-242. -/
inductive Deed where
  | assign (a : Assign)
  | fit (perm : ℕ → List ℕ) (modes : ℕ → Mode × Mode) (c : Coords) (data : CArr)
      (weights : Option CArr)
  | estimate (perm : ℕ → List ℕ) (c : Coords)
  | predict (mode : Mode) (c : Coords)

/-- An `EquivalentSources` after a deed; a method that raises leaves the attributes it has set, and
the program goes on. cartesian.py 193-383. -/
noncomputable def Deed.step (env : Env) (junk : Junk) (e : Estimator) : Deed → Estimator
  | .assign a => { e with params := a.set e.params }
  | .fit _ modes c d w =>
    { e with state := (EqSources.fit env junk (modes 0).1 e.params c d w e.state).1 }
  | .estimate _ c => { e with state := (estimateMemory env e.params c e.state).1 }
  | .predict _ _ => e

/-- An `EquivalentSourcesGB` after a deed. gradient_boosted.py 142-242 and cartesian.py 353-383. -/
noncomputable def Deed.stepGB (env : Env) (junk : Junk) (e : Estimator) : Deed → Estimator
  | .assign a => { e with params := a.set e.params }
  | .fit perm modes c d w =>
    { e with state := (fitGB env junk perm modes e.params c d w e.state).1 }
  | .estimate perm c => { e with state := (estimateMemoryGB env perm e.params c e.state).1 }
  | .predict _ _ => e

/-- An assignment to a parameter of an `EquivalentSourcesSph`. spherical.py 112-124. -/
inductive SphAssign where
  | damping (v : Option ℝ)
  | points (v : Option Coords)
  | relative_depth (v : ℝ)

/-- The parameters after an assignment. spherical.py 119-122. -/
def SphAssign.set (P : SphParams) : SphAssign → SphParams
  | .damping v => { P with damping := v }
  | .points v => { P with points := v }
  | .relative_depth v => { P with relative_depth := v }

/-- An `EquivalentSourcesSph`. spherical.py 119-124, 205-217. -/
structure SphEstimator where
  params : SphParams
  state : State := {}

/-- What a program does with an `EquivalentSourcesSph`; `estimate_required_memory` sets no attribute.
spherical.py 126-248. -/
inductive SphDeed where
  | assign (a : SphAssign)
  | fit (mode : Mode) (c : Coords) (data : CArr) (weights : Option CArr)
  | estimate (c : Coords)
  | predict (mode : Mode) (c : Coords)

/-- An `EquivalentSourcesSph` after a deed. spherical.py 126-248. -/
noncomputable def SphDeed.step (env : Env) (junk : Junk) (e : SphEstimator) : SphDeed → SphEstimator
  | .assign a => { e with params := a.set e.params }
  | .fit mode c d w => { e with state := (fitSph env junk mode e.params c d w e.state).1 }
  | .estimate _ => e
  | .predict _ _ => e

end Verif.EqSources
