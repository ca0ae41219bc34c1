import Mathlib.Analysis.SpecialFunctions.Trigonometric.Basic

/-! Common vocabulary of the models: Python exceptions as values, angles in degrees. -/

namespace Verif

/-- Classes of Python exceptions that the modelled code can raise.
Model of: the exceptions raised across src/harmonica (e.g. _forward/point.py 242-246, _euler_methods.py 379-443); messages are not modelled. -/
inductive PyErr where
  | ValueError
  | TypeError
  | NotImplementedError
  | IndexError
  | KeyError
  | OSError
  | OverflowError
  | ZeroDivisionError
  | UnboundLocalError
  | LinAlgError
  | UFuncTypeError
  | AttributeError
  | ZlibError
  | FloatingPointError
  | ImportError
  deriving DecidableEq, Repr

/-- Result of a Python call: an exception or a value.
Convention of the model for every function of src/harmonica that can raise (e.g. _forward/prisms/utils.py 12-43). -/
abbrev Py (α : Type) := Except PyErr α

theorem Py.throw_eq {α : Type} (e : PyErr) : (throw e : Except PyErr α) = .error e := rfl
theorem Py.bind_ok {α β : Type} (a : α) (f : α → Except PyErr β) :
    (Except.ok a >>= f : Except PyErr β) = f a := rfl
theorem Py.bind_error {α β : Type} (e : PyErr) (f : α → Except PyErr β) :
    (Except.error e >>= f : Except PyErr β) = .error e := rfl
theorem Py.pure_eq {α : Type} (a : α) : (pure a : Except PyErr α) = .ok a := rfl

/-- `np.radians`. Used e.g. at _utils.py 68-69, _forward/utils.py 150-151. -/
noncomputable def radians (x : ℝ) : ℝ := x * (Real.pi / 180)

/-- `np.degrees`. Used at _utils.py 156-157. -/
noncomputable def degrees (x : ℝ) : ℝ := x * (180 / Real.pi)

theorem degrees_radians (x : ℝ) : degrees (radians x) = x := by
  unfold degrees radians; field_simp

theorem radians_degrees (x : ℝ) : radians (degrees x) = x := by
  unfold degrees radians; field_simp

theorem radians_add (x y : ℝ) : radians (x + y) = radians x + radians y := by
  unfold radians; ring

theorem radians_sub (x y : ℝ) : radians (x - y) = radians x - radians y := by
  unfold radians; ring

end Verif
