/-
Model of the comparison helpers of src/utils.rs (the axis helpers of that file are in
Verif/Model/Axis.lean).  Exact reals stand for `f64`; `Complex<f64>` is `ℂ`.
-/
import Verif.Model.Axis
import Mathlib.Data.Complex.Basic

namespace Verif
open Res

/-- `assert!(p)` for a proposition about reals. -/
noncomputable def assertP (p : Prop) : Res Unit := by
  classical exact if p then ok () else err .panic

/-- utils.rs:6-19 `approx_eq` (loop over the zipped slices; it ends with the shorter one). -/
noncomputable def approxEq : List ℝ → List ℝ → Res Unit
  | a :: as, b :: bs => do
    assertP (|a - b| < 1 / 1000)                                     -- 12-13
    approxEq as bs
  | _, _ => ok ()

/-- utils.rs:26-39 `approx_eq_complex`. -/
noncomputable def approxEqComplex : List ℂ → List ℂ → Res Unit
  | a :: as, b :: bs => do
    assertP (|a.re - b.re| < 1 / 1000 ∨ |a.im - b.im| < 1 / 1000)    -- 32-33
    approxEqComplex as bs
  | _, _ => ok ()

/-- utils.rs:45-62 `approx_eq_ndarray`: zips `expected.iter()` with `result.iter()`, i.e. the
elements in logical order. -/
noncomputable def approxEqNdarray (result expected : Arr ℝ) : Res Unit :=
  approxEq expected.data result.data

/-- utils.rs:68-85 `approx_eq_complex_ndarray`. -/
noncomputable def approxEqComplexNdarray (result expected : Arr ℂ) : Res Unit :=
  approxEqComplex expected.data result.data

end Verif
