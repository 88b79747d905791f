/-
C95: the coefficient operators treat the real and the imaginary part of complex data separately.
-/
import Verif.Proof.NaturalArr
import Verif.Proof.Spaces
import Verif.Spec.FloatArith
import Verif.Spec.Rounding

namespace Verif.Props
open Res Spec

/-! ### which maps -/

/-- Taking the real part respects the operations. -/
theorem C95_re : Respects ℝ Complex.re where
  zero := rfl
  add _ _ := rfl
  sub _ _ := rfl
  smul k x := by simp
  div x k := by
    rw [divR_eq, divR_eq]
    split <;> simp [onResult]

/-- Taking the imaginary part respects the operations. -/
theorem C95_im : Respects ℝ Complex.im where
  zero := rfl
  add _ _ := rfl
  sub _ _ := rfl
  smul k x := by simp
  div x k := by
    rw [divR_eq, divR_eq]
    split <;> simp [onResult]

/-- Complex conjugation respects the operations. -/
theorem C95_conj : Respects ℝ (starRingEnd ℂ) where
  zero := by simp
  add _ _ := by simp
  sub _ _ := by simp
  smul k x := by simp
  div x k := by
    rw [divR_eq, divR_eq]
    split <;> simp [onResult]

/-- So does multiplication by a fixed complex number (the operators are linear over `ℂ`). -/
theorem C95_mul (c : ℂ) : Respects ℝ (fun x : ℂ => c * x) where
  zero := by simp
  add _ _ := by ring
  sub _ _ := by ring
  smul k x := by simp [mul_left_comm]
  div x k := by
    rw [divR_eq, divR_eq]
    split <;> simp [onResult, mul_left_comm]

/-- Floating-point numbers: the real part of a pair. -/
theorem C95_float_re : Respects Float FloatC.re := ⟨rfl, fun _ _ => rfl, fun _ _ => rfl, fun _ _ => rfl, fun _ _ => rfl⟩

/-- Floating-point numbers: the imaginary part of a pair. -/
theorem C95_float_im : Respects Float FloatC.im := ⟨rfl, fun _ _ => rfl, fun _ _ => rfl, fun _ _ => rfl, fun _ _ => rfl⟩

/-! ### solvers -/

section Solvers
variable {K T T' : Type} [Zero K] [Sub K] [Mul K] [DivBy K K] [Zero T] [Add T] [Sub T] [SMul K T] [DivBy K T]
  [Zero T'] [Add T'] [Sub T'] [SMul K T'] [DivBy K T'] {h : T → T'}

/-- The banded solvers, checked or not: solving for the mapped right-hand side gives the mapped solution (in
any arithmetic, for any diagonals and any right-hand side), and one run fails exactly as the other. -/
theorem C95_solvers (H : Respects K h) (a b c d e : List K) (rhs : List T) :
    tdma a b c (rhs.map h) = onResult (List.map h) (tdma a b c rhs) ∧
    pdma a b c d e (rhs.map h) = onResult (List.map h) (pdma a b c d e rhs) ∧
    pdma2 a b c d e (rhs.map h) = onResult (List.map h) (pdma2 a b c d e rhs) ∧
    tdmaChecked a b c (rhs.map h) = onResult (List.map h) (tdmaChecked a b c rhs) ∧
    pdmaChecked a b c d e (rhs.map h) = onResult (List.map h) (pdmaChecked a b c d e rhs) ∧
    pdma2Checked a b c d e (rhs.map h) = onResult (List.map h) (pdma2Checked a b c d e rhs) :=
  ⟨nat_tdma H _ _ _ _, nat_pdma H _ _ _ _ _ _, nat_pdma2 H _ _ _ _ _ _, nat_tdmaChecked H _ _ _ _,
    nat_pdmaChecked H _ _ _ _ _ _, nat_pdma2Checked H _ _ _ _ _ _⟩

end Solvers

section R2r
variable {A T T' : Type} [Zero A] [One A] [Neg A] [Add A] [Sub A] [Mul A] [Div A] [NatCast A] [Pow A ℕ]
  [DivBy A A] [SMul A A] [Libm A] [HasDct A]
  [Zero T] [Add T] [Sub T] [SMul A T] [DivBy A T]
  [Zero T'] [Add T'] [Sub T'] [SMul A T'] [DivBy A T'] {h : T → T'}

/-! ### slices -/

/-- The slice operators of every Chebyshev base, for slices of any lengths. -/
theorem C95_slices (H : Respects A h) (b : BaseR2r A) (x y : List T) (d : ℕ) :
    (b.toBase T').toOrthoSlice (x.map h) (y.map h) = onResult (List.map h) ((b.toBase T).toOrthoSlice x y) ∧
    (b.toBase T').fromOrthoSlice (x.map h) (y.map h) = onResult (List.map h) ((b.toBase T).fromOrthoSlice x y) ∧
    (b.toBase T').gradientSlice (x.map h) (y.map h) d =
      onResult (List.map h) ((b.toBase T).gradientSlice x y d) :=
  ⟨(nat_r2r H b).conv x y, (nat_r2r H b).fr x y, (nat_r2r H b).grad d x y⟩

/-! ### arrays -/

/-- The array methods of every Chebyshev base, along any axis of any array. -/
theorem C95_arrays (H : Respects A h) (b : BaseR2r A) (a o : Arr T) (d axis : ℕ) :
    (b.toBase T').toOrtho (onArray h a) axis = onResult (onArray h) ((b.toBase T).toOrtho a axis) ∧
    (b.toBase T').fromOrtho (onArray h a) axis = onResult (onArray h) ((b.toBase T).fromOrtho a axis) ∧
    (b.toBase T').gradient (onArray h a) d axis = onResult (onArray h) ((b.toBase T).gradient a d axis) ∧
    (b.toBase T').toOrthoInplace (onArray h a) (onArray h o) axis =
      onResult (onArray h) ((b.toBase T).toOrthoInplace a o axis) ∧
    (b.toBase T').fromOrthoInplace (onArray h a) (onArray h o) axis =
      onResult (onArray h) ((b.toBase T).fromOrthoInplace a o axis) ∧
    (b.toBase T').gradientInplace (onArray h a) (onArray h o) d axis =
      onResult (onArray h) ((b.toBase T).gradientInplace a o d axis) :=
  have k := nat_r2r H b
  ⟨k.toOrtho H.zero _ _, k.fromOrtho H.zero _ _, k.gradient H.zero _ _ _, k.toOrthoInplace H.zero _ _ _,
    k.fromOrthoInplace H.zero _ _ _, k.gradientInplace H.zero _ _ _ _⟩

/-- The parallel array methods, under every schedule (the two runs compared follow the same schedule). -/
theorem C95_arrays_par (H : Respects A h) (b : BaseR2r A) (sched : List ℕ) (a o : Arr T) (d axis : ℕ) :
    (b.toBase T').toOrthoPar sched (onArray h a) axis =
      onResult (onArray h) ((b.toBase T).toOrthoPar sched a axis) ∧
    (b.toBase T').fromOrthoPar sched (onArray h a) axis =
      onResult (onArray h) ((b.toBase T).fromOrthoPar sched a axis) ∧
    (b.toBase T').gradientPar sched (onArray h a) d axis =
      onResult (onArray h) ((b.toBase T).gradientPar sched a d axis) ∧
    (b.toBase T').toOrthoInplacePar sched (onArray h a) (onArray h o) axis =
      onResult (onArray h) ((b.toBase T).toOrthoInplacePar sched a o axis) ∧
    (b.toBase T').fromOrthoInplacePar sched (onArray h a) (onArray h o) axis =
      onResult (onArray h) ((b.toBase T).fromOrthoInplacePar sched a o axis) ∧
    (b.toBase T').gradientInplacePar sched (onArray h a) (onArray h o) d axis =
      onResult (onArray h) ((b.toBase T).gradientInplacePar sched a o d axis) :=
  have k := nat_r2r H b
  ⟨k.toOrthoPar H.zero _ _ _, k.fromOrthoPar H.zero _ _ _, k.gradientPar H.zero _ _ _ _,
    k.toOrthoInplacePar H.zero _ _ _ _, k.fromOrthoInplacePar H.zero _ _ _ _,
    k.gradientInplacePar H.zero _ _ _ _ _⟩

/-! ### spaces -/

variable [Powi A]

/-- All coefficient operators of a 1-dimensional space over Chebyshev bases. -/
theorem C95_space1 (H : Respects A h) (b0 : BaseR2r A) (s0 : List ℕ) (a o : Arr T) (d0 : ℕ)
    (c : Option (A)) :
    (Space1.new (b0.toBase T')).toOrtho (onArray h a) =
      onResult (onArray h) ((Space1.new (b0.toBase T)).toOrtho a) ∧
    (Space1.new (b0.toBase T')).toOrthoInplace (onArray h a) (onArray h o) =
      onResult (onArray h) ((Space1.new (b0.toBase T)).toOrthoInplace a o) ∧
    (Space1.new (b0.toBase T')).fromOrtho (onArray h a) =
      onResult (onArray h) ((Space1.new (b0.toBase T)).fromOrtho a) ∧
    (Space1.new (b0.toBase T')).fromOrthoInplace (onArray h a) (onArray h o) =
      onResult (onArray h) ((Space1.new (b0.toBase T)).fromOrthoInplace a o) ∧
    (Space1.new (b0.toBase T')).gradient (onArray h a) d0 c =
      onResult (onArray h) ((Space1.new (b0.toBase T)).gradient a d0 c) ∧
    (Space1.new (b0.toBase T')).toOrthoPar s0 (onArray h a) =
      onResult (onArray h) ((Space1.new (b0.toBase T)).toOrthoPar s0 a) ∧
    (Space1.new (b0.toBase T')).toOrthoInplacePar s0 (onArray h a) (onArray h o) =
      onResult (onArray h) ((Space1.new (b0.toBase T)).toOrthoInplacePar s0 a o) ∧
    (Space1.new (b0.toBase T')).fromOrthoPar s0 (onArray h a) =
      onResult (onArray h) ((Space1.new (b0.toBase T)).fromOrthoPar s0 a) ∧
    (Space1.new (b0.toBase T')).fromOrthoInplacePar s0 (onArray h a) (onArray h o) =
      onResult (onArray h) ((Space1.new (b0.toBase T)).fromOrthoInplacePar s0 a o) ∧
    (Space1.new (b0.toBase T')).gradientPar s0 (onArray h a) d0 c =
      onResult (onArray h) ((Space1.new (b0.toBase T)).gradientPar s0 a d0 c) := by
  have k0 := nat_r2r H b0
  have itoOrtho : ∀ a o, NatR (onArray h) ((Space1.new (b0.toBase T)).toOrthoInplace a o)
      ((Space1.new (b0.toBase T')).toOrthoInplace (onArray h a) (onArray h o)) := fun a o =>
    k0.toOrthoInplace H.zero _ _ 0
  have atoOrtho : NatR (onArray h) ((Space1.new (b0.toBase T)).toOrtho a) ((Space1.new (b0.toBase T')).toOrtho (onArray h a)) := by
    have e : (Space1.new (b0.toBase T')).shapeSpectralOrtho = (Space1.new (b0.toBase T)).shapeSpectralOrtho := by
      simp only [Space1.new, Space1.shapeSpectralOrtho, k0.orth]
    unfold Space1.toOrtho
    rw [e, onArray_zeros H.zero]
    exact itoOrtho _ _
  have ifromOrtho : ∀ a o, NatR (onArray h) ((Space1.new (b0.toBase T)).fromOrthoInplace a o)
      ((Space1.new (b0.toBase T')).fromOrthoInplace (onArray h a) (onArray h o)) := fun a o =>
    k0.fromOrthoInplace H.zero _ _ 0
  have afromOrtho : NatR (onArray h) ((Space1.new (b0.toBase T)).fromOrtho a) ((Space1.new (b0.toBase T')).fromOrtho (onArray h a)) := by
    have e : (Space1.new (b0.toBase T')).shapeSpectral = (Space1.new (b0.toBase T)).shapeSpectral := by
      simp only [Space1.new, Space1.shapeSpectral, k0.spec]
    unfold Space1.fromOrtho
    rw [e, onArray_zeros H.zero]
    exact ifromOrtho _ _
  have g : NatR (onArray h) ((Space1.new (b0.toBase T)).gradient a d0 c)
      ((Space1.new (b0.toBase T')).gradient (onArray h a) d0 c) := by
    refine NatR.bind (k0.gradient H.zero _ _ 0) fun _ => ?_
    cases c with
    | none => exact NatR.pure rfl
    | some c =>
      exact NatR.same fun _ => nat_divAll H.div _ _
  have itoOrthoPar : ∀ a o, NatR (onArray h) ((Space1.new (b0.toBase T)).toOrthoInplacePar s0 a o)
      ((Space1.new (b0.toBase T')).toOrthoInplacePar s0 (onArray h a) (onArray h o)) := fun a o =>
    k0.toOrthoInplacePar H.zero s0 _ _ 0
  have atoOrthoPar : NatR (onArray h) ((Space1.new (b0.toBase T)).toOrthoPar s0 a) ((Space1.new (b0.toBase T')).toOrthoPar s0 (onArray h a)) := by
    have e : (Space1.new (b0.toBase T')).shapeSpectralOrtho = (Space1.new (b0.toBase T)).shapeSpectralOrtho := by
      simp only [Space1.new, Space1.shapeSpectralOrtho, k0.orth]
    unfold Space1.toOrthoPar
    rw [e, onArray_zeros H.zero]
    exact itoOrthoPar _ _
  have ifromOrthoPar : ∀ a o, NatR (onArray h) ((Space1.new (b0.toBase T)).fromOrthoInplacePar s0 a o)
      ((Space1.new (b0.toBase T')).fromOrthoInplacePar s0 (onArray h a) (onArray h o)) := fun a o =>
    k0.fromOrthoInplacePar H.zero s0 _ _ 0
  have afromOrthoPar : NatR (onArray h) ((Space1.new (b0.toBase T)).fromOrthoPar s0 a) ((Space1.new (b0.toBase T')).fromOrthoPar s0 (onArray h a)) := by
    have e : (Space1.new (b0.toBase T')).shapeSpectral = (Space1.new (b0.toBase T)).shapeSpectral := by
      simp only [Space1.new, Space1.shapeSpectral, k0.spec]
    unfold Space1.fromOrthoPar
    rw [e, onArray_zeros H.zero]
    exact ifromOrthoPar _ _
  have gPar : NatR (onArray h) ((Space1.new (b0.toBase T)).gradientPar s0 a d0 c)
      ((Space1.new (b0.toBase T')).gradientPar s0 (onArray h a) d0 c) := by
    refine NatR.bind (k0.gradientPar H.zero s0 _ _ 0) fun _ => ?_
    cases c with
    | none => exact NatR.pure rfl
    | some c =>
      exact NatR.same fun _ => nat_divAll H.div _ _
  exact ⟨atoOrtho, itoOrtho a o, afromOrtho, ifromOrtho a o, g, atoOrthoPar, itoOrthoPar a o, afromOrthoPar, ifromOrthoPar a o, gPar⟩

/-- All coefficient operators of a 2-dimensional space over Chebyshev bases. -/
theorem C95_space2 (H : Respects A h) (b0 b1 : BaseR2r A) (s0 s1 : List ℕ) (a o : Arr T) (d0 d1 : ℕ)
    (c : Option (A × A)) :
    (Space2.new (b0.toBase T') (b1.toBase T')).toOrtho (onArray h a) =
      onResult (onArray h) ((Space2.new (b0.toBase T) (b1.toBase T)).toOrtho a) ∧
    (Space2.new (b0.toBase T') (b1.toBase T')).toOrthoInplace (onArray h a) (onArray h o) =
      onResult (onArray h) ((Space2.new (b0.toBase T) (b1.toBase T)).toOrthoInplace a o) ∧
    (Space2.new (b0.toBase T') (b1.toBase T')).fromOrtho (onArray h a) =
      onResult (onArray h) ((Space2.new (b0.toBase T) (b1.toBase T)).fromOrtho a) ∧
    (Space2.new (b0.toBase T') (b1.toBase T')).fromOrthoInplace (onArray h a) (onArray h o) =
      onResult (onArray h) ((Space2.new (b0.toBase T) (b1.toBase T)).fromOrthoInplace a o) ∧
    (Space2.new (b0.toBase T') (b1.toBase T')).gradient (onArray h a) d0 d1 c =
      onResult (onArray h) ((Space2.new (b0.toBase T) (b1.toBase T)).gradient a d0 d1 c) ∧
    (Space2.new (b0.toBase T') (b1.toBase T')).toOrthoPar s0 s1 (onArray h a) =
      onResult (onArray h) ((Space2.new (b0.toBase T) (b1.toBase T)).toOrthoPar s0 s1 a) ∧
    (Space2.new (b0.toBase T') (b1.toBase T')).toOrthoInplacePar s0 s1 (onArray h a) (onArray h o) =
      onResult (onArray h) ((Space2.new (b0.toBase T) (b1.toBase T)).toOrthoInplacePar s0 s1 a o) ∧
    (Space2.new (b0.toBase T') (b1.toBase T')).fromOrthoPar s0 s1 (onArray h a) =
      onResult (onArray h) ((Space2.new (b0.toBase T) (b1.toBase T)).fromOrthoPar s0 s1 a) ∧
    (Space2.new (b0.toBase T') (b1.toBase T')).fromOrthoInplacePar s0 s1 (onArray h a) (onArray h o) =
      onResult (onArray h) ((Space2.new (b0.toBase T) (b1.toBase T)).fromOrthoInplacePar s0 s1 a o) ∧
    (Space2.new (b0.toBase T') (b1.toBase T')).gradientPar s0 s1 (onArray h a) d0 d1 c =
      onResult (onArray h) ((Space2.new (b0.toBase T) (b1.toBase T)).gradientPar s0 s1 a d0 d1 c) := by
  have k0 := nat_r2r H b0
  have k1 := nat_r2r H b1
  have itoOrtho : ∀ a o, NatR (onArray h) ((Space2.new (b0.toBase T) (b1.toBase T)).toOrthoInplace a o)
      ((Space2.new (b0.toBase T') (b1.toBase T')).toOrthoInplace (onArray h a) (onArray h o)) := fun a o =>
    NatR.bind (k0.toOrtho H.zero _ 0) fun _ => k1.toOrthoInplace H.zero _ _ 1
  have atoOrtho : NatR (onArray h) ((Space2.new (b0.toBase T) (b1.toBase T)).toOrtho a) ((Space2.new (b0.toBase T') (b1.toBase T')).toOrtho (onArray h a)) := by
    have e : (Space2.new (b0.toBase T') (b1.toBase T')).shapeSpectralOrtho = (Space2.new (b0.toBase T) (b1.toBase T)).shapeSpectralOrtho := by
      simp only [Space2.new, Space2.shapeSpectralOrtho, k0.orth, k1.orth]
    unfold Space2.toOrtho
    rw [e, onArray_zeros H.zero]
    exact itoOrtho _ _
  have ifromOrtho : ∀ a o, NatR (onArray h) ((Space2.new (b0.toBase T) (b1.toBase T)).fromOrthoInplace a o)
      ((Space2.new (b0.toBase T') (b1.toBase T')).fromOrthoInplace (onArray h a) (onArray h o)) := fun a o =>
    NatR.bind (k0.fromOrtho H.zero _ 0) fun _ => k1.fromOrthoInplace H.zero _ _ 1
  have afromOrtho : NatR (onArray h) ((Space2.new (b0.toBase T) (b1.toBase T)).fromOrtho a) ((Space2.new (b0.toBase T') (b1.toBase T')).fromOrtho (onArray h a)) := by
    have e : (Space2.new (b0.toBase T') (b1.toBase T')).shapeSpectral = (Space2.new (b0.toBase T) (b1.toBase T)).shapeSpectral := by
      simp only [Space2.new, Space2.shapeSpectral, k0.spec, k1.spec]
    unfold Space2.fromOrtho
    rw [e, onArray_zeros H.zero]
    exact ifromOrtho _ _
  have g : NatR (onArray h) ((Space2.new (b0.toBase T) (b1.toBase T)).gradient a d0 d1 c)
      ((Space2.new (b0.toBase T') (b1.toBase T')).gradient (onArray h a) d0 d1 c) := by
    refine NatR.bind (k0.gradient H.zero _ _ 0) fun _ => NatR.bind (k1.gradient H.zero _ _ 1) fun _ => ?_
    cases c with
    | none => exact NatR.pure rfl
    | some c =>
      exact NatR.same fun _ => NatR.same fun _ => nat_divAll H.div _ _
  have itoOrthoPar : ∀ a o, NatR (onArray h) ((Space2.new (b0.toBase T) (b1.toBase T)).toOrthoInplacePar s0 s1 a o)
      ((Space2.new (b0.toBase T') (b1.toBase T')).toOrthoInplacePar s0 s1 (onArray h a) (onArray h o)) := fun a o =>
    NatR.bind (k0.toOrthoPar H.zero s0 _ 0) fun _ => k1.toOrthoInplacePar H.zero s1 _ _ 1
  have atoOrthoPar : NatR (onArray h) ((Space2.new (b0.toBase T) (b1.toBase T)).toOrthoPar s0 s1 a) ((Space2.new (b0.toBase T') (b1.toBase T')).toOrthoPar s0 s1 (onArray h a)) := by
    have e : (Space2.new (b0.toBase T') (b1.toBase T')).shapeSpectralOrtho = (Space2.new (b0.toBase T) (b1.toBase T)).shapeSpectralOrtho := by
      simp only [Space2.new, Space2.shapeSpectralOrtho, k0.orth, k1.orth]
    unfold Space2.toOrthoPar
    rw [e, onArray_zeros H.zero]
    exact itoOrthoPar _ _
  have ifromOrthoPar : ∀ a o, NatR (onArray h) ((Space2.new (b0.toBase T) (b1.toBase T)).fromOrthoInplacePar s0 s1 a o)
      ((Space2.new (b0.toBase T') (b1.toBase T')).fromOrthoInplacePar s0 s1 (onArray h a) (onArray h o)) := fun a o =>
    NatR.bind (k0.fromOrthoPar H.zero s0 _ 0) fun _ => k1.fromOrthoInplacePar H.zero s1 _ _ 1
  have afromOrthoPar : NatR (onArray h) ((Space2.new (b0.toBase T) (b1.toBase T)).fromOrthoPar s0 s1 a) ((Space2.new (b0.toBase T') (b1.toBase T')).fromOrthoPar s0 s1 (onArray h a)) := by
    have e : (Space2.new (b0.toBase T') (b1.toBase T')).shapeSpectral = (Space2.new (b0.toBase T) (b1.toBase T)).shapeSpectral := by
      simp only [Space2.new, Space2.shapeSpectral, k0.spec, k1.spec]
    unfold Space2.fromOrthoPar
    rw [e, onArray_zeros H.zero]
    exact ifromOrthoPar _ _
  have gPar : NatR (onArray h) ((Space2.new (b0.toBase T) (b1.toBase T)).gradientPar s0 s1 a d0 d1 c)
      ((Space2.new (b0.toBase T') (b1.toBase T')).gradientPar s0 s1 (onArray h a) d0 d1 c) := by
    refine NatR.bind (k0.gradientPar H.zero s0 _ _ 0) fun _ => NatR.bind (k1.gradientPar H.zero s1 _ _ 1) fun _ => ?_
    cases c with
    | none => exact NatR.pure rfl
    | some c =>
      exact NatR.same fun _ => NatR.same fun _ => nat_divAll H.div _ _
  exact ⟨atoOrtho, itoOrtho a o, afromOrtho, ifromOrtho a o, g, atoOrthoPar, itoOrthoPar a o, afromOrthoPar, ifromOrthoPar a o, gPar⟩

/-- All coefficient operators of a 3-dimensional space over Chebyshev bases. -/
theorem C95_space3 (H : Respects A h) (b0 b1 b2 : BaseR2r A) (s0 s1 s2 : List ℕ) (a o : Arr T) (d0 d1 d2 : ℕ)
    (c : Option (A × A × A)) :
    (Space3.new (b0.toBase T') (b1.toBase T') (b2.toBase T')).toOrtho (onArray h a) =
      onResult (onArray h) ((Space3.new (b0.toBase T) (b1.toBase T) (b2.toBase T)).toOrtho a) ∧
    (Space3.new (b0.toBase T') (b1.toBase T') (b2.toBase T')).toOrthoInplace (onArray h a) (onArray h o) =
      onResult (onArray h) ((Space3.new (b0.toBase T) (b1.toBase T) (b2.toBase T)).toOrthoInplace a o) ∧
    (Space3.new (b0.toBase T') (b1.toBase T') (b2.toBase T')).fromOrtho (onArray h a) =
      onResult (onArray h) ((Space3.new (b0.toBase T) (b1.toBase T) (b2.toBase T)).fromOrtho a) ∧
    (Space3.new (b0.toBase T') (b1.toBase T') (b2.toBase T')).fromOrthoInplace (onArray h a) (onArray h o) =
      onResult (onArray h) ((Space3.new (b0.toBase T) (b1.toBase T) (b2.toBase T)).fromOrthoInplace a o) ∧
    (Space3.new (b0.toBase T') (b1.toBase T') (b2.toBase T')).gradient (onArray h a) d0 d1 d2 c =
      onResult (onArray h) ((Space3.new (b0.toBase T) (b1.toBase T) (b2.toBase T)).gradient a d0 d1 d2 c) ∧
    (Space3.new (b0.toBase T') (b1.toBase T') (b2.toBase T')).toOrthoPar s0 s1 s2 (onArray h a) =
      onResult (onArray h) ((Space3.new (b0.toBase T) (b1.toBase T) (b2.toBase T)).toOrthoPar s0 s1 s2 a) ∧
    (Space3.new (b0.toBase T') (b1.toBase T') (b2.toBase T')).toOrthoInplacePar s0 s1 s2 (onArray h a) (onArray h o) =
      onResult (onArray h) ((Space3.new (b0.toBase T) (b1.toBase T) (b2.toBase T)).toOrthoInplacePar s0 s1 s2 a o) ∧
    (Space3.new (b0.toBase T') (b1.toBase T') (b2.toBase T')).fromOrthoPar s0 s1 s2 (onArray h a) =
      onResult (onArray h) ((Space3.new (b0.toBase T) (b1.toBase T) (b2.toBase T)).fromOrthoPar s0 s1 s2 a) ∧
    (Space3.new (b0.toBase T') (b1.toBase T') (b2.toBase T')).fromOrthoInplacePar s0 s1 s2 (onArray h a) (onArray h o) =
      onResult (onArray h) ((Space3.new (b0.toBase T) (b1.toBase T) (b2.toBase T)).fromOrthoInplacePar s0 s1 s2 a o) ∧
    (Space3.new (b0.toBase T') (b1.toBase T') (b2.toBase T')).gradientPar s0 s1 s2 (onArray h a) d0 d1 d2 c =
      onResult (onArray h) ((Space3.new (b0.toBase T) (b1.toBase T) (b2.toBase T)).gradientPar s0 s1 s2 a d0 d1 d2 c) := by
  have k0 := nat_r2r H b0
  have k1 := nat_r2r H b1
  have k2 := nat_r2r H b2
  have itoOrtho : ∀ a o, NatR (onArray h) ((Space3.new (b0.toBase T) (b1.toBase T) (b2.toBase T)).toOrthoInplace a o)
      ((Space3.new (b0.toBase T') (b1.toBase T') (b2.toBase T')).toOrthoInplace (onArray h a) (onArray h o)) := fun a o =>
    NatR.bind (k0.toOrtho H.zero _ 0) fun _ => NatR.bind (k1.toOrtho H.zero _ 1) fun _ => k2.toOrthoInplace H.zero _ _ 2
  have atoOrtho : NatR (onArray h) ((Space3.new (b0.toBase T) (b1.toBase T) (b2.toBase T)).toOrtho a) ((Space3.new (b0.toBase T') (b1.toBase T') (b2.toBase T')).toOrtho (onArray h a)) := by
    have e : (Space3.new (b0.toBase T') (b1.toBase T') (b2.toBase T')).shapeSpectralOrtho = (Space3.new (b0.toBase T) (b1.toBase T) (b2.toBase T)).shapeSpectralOrtho := by
      simp only [Space3.new, Space3.shapeSpectralOrtho, k0.orth, k1.orth, k2.orth]
    unfold Space3.toOrtho
    rw [e, onArray_zeros H.zero]
    exact itoOrtho _ _
  have ifromOrtho : ∀ a o, NatR (onArray h) ((Space3.new (b0.toBase T) (b1.toBase T) (b2.toBase T)).fromOrthoInplace a o)
      ((Space3.new (b0.toBase T') (b1.toBase T') (b2.toBase T')).fromOrthoInplace (onArray h a) (onArray h o)) := fun a o =>
    NatR.bind (k0.fromOrtho H.zero _ 0) fun _ => NatR.bind (k1.fromOrtho H.zero _ 1) fun _ => k2.fromOrthoInplace H.zero _ _ 2
  have afromOrtho : NatR (onArray h) ((Space3.new (b0.toBase T) (b1.toBase T) (b2.toBase T)).fromOrtho a) ((Space3.new (b0.toBase T') (b1.toBase T') (b2.toBase T')).fromOrtho (onArray h a)) := by
    have e : (Space3.new (b0.toBase T') (b1.toBase T') (b2.toBase T')).shapeSpectral = (Space3.new (b0.toBase T) (b1.toBase T) (b2.toBase T)).shapeSpectral := by
      simp only [Space3.new, Space3.shapeSpectral, k0.spec, k1.spec, k2.spec]
    unfold Space3.fromOrtho
    rw [e, onArray_zeros H.zero]
    exact ifromOrtho _ _
  have g : NatR (onArray h) ((Space3.new (b0.toBase T) (b1.toBase T) (b2.toBase T)).gradient a d0 d1 d2 c)
      ((Space3.new (b0.toBase T') (b1.toBase T') (b2.toBase T')).gradient (onArray h a) d0 d1 d2 c) := by
    refine NatR.bind (k0.gradient H.zero _ _ 0) fun _ => NatR.bind (k1.gradient H.zero _ _ 1) fun _ => NatR.bind (k1.gradient H.zero _ _ 2) fun _ => ?_
    cases c with
    | none => exact NatR.pure rfl
    | some c =>
      exact NatR.same fun _ => NatR.same fun _ => NatR.same fun _ => nat_divAll H.div _ _
  have itoOrthoPar : ∀ a o, NatR (onArray h) ((Space3.new (b0.toBase T) (b1.toBase T) (b2.toBase T)).toOrthoInplacePar s0 s1 s2 a o)
      ((Space3.new (b0.toBase T') (b1.toBase T') (b2.toBase T')).toOrthoInplacePar s0 s1 s2 (onArray h a) (onArray h o)) := fun a o =>
    NatR.bind (k0.toOrthoPar H.zero s0 _ 0) fun _ => NatR.bind (k1.toOrthoPar H.zero s1 _ 1) fun _ => k2.toOrthoInplacePar H.zero s2 _ _ 2
  have atoOrthoPar : NatR (onArray h) ((Space3.new (b0.toBase T) (b1.toBase T) (b2.toBase T)).toOrthoPar s0 s1 s2 a) ((Space3.new (b0.toBase T') (b1.toBase T') (b2.toBase T')).toOrthoPar s0 s1 s2 (onArray h a)) := by
    have e : (Space3.new (b0.toBase T') (b1.toBase T') (b2.toBase T')).shapeSpectralOrtho = (Space3.new (b0.toBase T) (b1.toBase T) (b2.toBase T)).shapeSpectralOrtho := by
      simp only [Space3.new, Space3.shapeSpectralOrtho, k0.orth, k1.orth, k2.orth]
    unfold Space3.toOrthoPar
    rw [e, onArray_zeros H.zero]
    exact itoOrthoPar _ _
  have ifromOrthoPar : ∀ a o, NatR (onArray h) ((Space3.new (b0.toBase T) (b1.toBase T) (b2.toBase T)).fromOrthoInplacePar s0 s1 s2 a o)
      ((Space3.new (b0.toBase T') (b1.toBase T') (b2.toBase T')).fromOrthoInplacePar s0 s1 s2 (onArray h a) (onArray h o)) := fun a o =>
    NatR.bind (k0.fromOrthoPar H.zero s0 _ 0) fun _ => NatR.bind (k1.fromOrthoPar H.zero s1 _ 1) fun _ => k2.fromOrthoInplacePar H.zero s2 _ _ 2
  have afromOrthoPar : NatR (onArray h) ((Space3.new (b0.toBase T) (b1.toBase T) (b2.toBase T)).fromOrthoPar s0 s1 s2 a) ((Space3.new (b0.toBase T') (b1.toBase T') (b2.toBase T')).fromOrthoPar s0 s1 s2 (onArray h a)) := by
    have e : (Space3.new (b0.toBase T') (b1.toBase T') (b2.toBase T')).shapeSpectral = (Space3.new (b0.toBase T) (b1.toBase T) (b2.toBase T)).shapeSpectral := by
      simp only [Space3.new, Space3.shapeSpectral, k0.spec, k1.spec, k2.spec]
    unfold Space3.fromOrthoPar
    rw [e, onArray_zeros H.zero]
    exact ifromOrthoPar _ _
  have gPar : NatR (onArray h) ((Space3.new (b0.toBase T) (b1.toBase T) (b2.toBase T)).gradientPar s0 s1 s2 a d0 d1 d2 c)
      ((Space3.new (b0.toBase T') (b1.toBase T') (b2.toBase T')).gradientPar s0 s1 s2 (onArray h a) d0 d1 d2 c) := by
    refine NatR.bind (k0.gradientPar H.zero s0 _ _ 0) fun _ => NatR.bind (k1.gradientPar H.zero s1 _ _ 1) fun _ => NatR.bind (k1.gradientPar H.zero s2 _ _ 2) fun _ => ?_
    cases c with
    | none => exact NatR.pure rfl
    | some c =>
      exact NatR.same fun _ => NatR.same fun _ => NatR.same fun _ => nat_divAll H.div _ _
  exact ⟨atoOrtho, itoOrtho a o, afromOrtho, ifromOrtho a o, g, atoOrthoPar, itoOrthoPar a o, afromOrthoPar, ifromOrthoPar a o, gPar⟩

end R2r

/-! ### real and imaginary part -/

/-- Two real runs make up the complex one: when the runs on the real and on the imaginary parts return, so
does the run on the complex data, and the results fit together; and when it returns, so do they. -/
theorem C95_gradient_parts (b0 b1 : BaseR2r) (z : Arr ℂ) (d0 d1 : ℕ) (c : Option (ℝ × ℝ)) (x y : Arr ℝ) :
    ((Space2.new (b0.toBase ℝ) (b1.toBase ℝ)).gradient (onArray Complex.re z) d0 d1 c = ok x ∧
      (Space2.new (b0.toBase ℝ) (b1.toBase ℝ)).gradient (onArray Complex.im z) d0 d1 c = ok y) ↔
    ∃ w, (Space2.new (b0.toBase ℂ) (b1.toBase ℂ)).gradient z d0 d1 c = ok w ∧
      onArray Complex.re w = x ∧ onArray Complex.im w = y := by
  have hr := (C95_space2 C95_re b0 b1 [] [] z z d0 d1 c).2.2.2.2.1
  have hi := (C95_space2 C95_im b0 b1 [] [] z z d0 d1 c).2.2.2.2.1
  rw [hr, hi]
  cases (Space2.new (b0.toBase ℂ) (b1.toBase ℂ)).gradient z d0 d1 c with
  | err e => simp [onResult]
  | ok w => simp [onResult]

/-- Real data stay real: on data without imaginary part the complex operators give the real results. -/
theorem C95_of_real : Respects ℝ (fun x : ℝ => (x : ℂ)) where
  zero := by simp
  add _ _ := by simp
  sub _ _ := by simp
  smul k x := by simp
  div x k := by
    rw [divR_eq, divR_eq]
    split <;> simp [onResult]

/-- A run in floating point: the coefficients `1 + 2i, 3 - 4i, 5` of a series of 5 Chebyshev-Dirichlet
coefficients. -/
example (b : BaseR2r Float) :
    (b.toBase Float).fromOrtho (onArray FloatC.re ⟨[5], [⟨1, 2⟩, ⟨3, -4⟩, ⟨5, 0⟩, ⟨0, 0⟩, ⟨1, 1⟩], true⟩) 0 =
      onResult (onArray FloatC.re)
        ((b.toBase FloatC).fromOrtho ⟨[5], [⟨1, 2⟩, ⟨3, -4⟩, ⟨5, 0⟩, ⟨0, 0⟩, ⟨1, 1⟩], true⟩ 0) :=
  (C95_arrays C95_float_re b _ ⟨[], [], true⟩ 0 0).2.1

end Verif.Props
