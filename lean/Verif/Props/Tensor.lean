/-
Property C110: the operations of a space act on sums of products of functions of one variable factor by factor.
-/
import Verif.Proof.SumOf
import Verif.Proof.SpaceEx
import Verif.Props.SpaceInst

namespace Verif.Props
open Res Spec Finset

section
variable {R P I S T : Type} [CommRing R] [AddCommGroup P] [Module R P] [CommRing I] [Algebra R I] [AddCommGroup S]
  [Module I S] [Zero T]

/-- C110, `forward` in two dimensions. -/
theorem C110_space2_forward (sp : Space2 P I S T)
    (h0 : LinOp I sp.base0.forwardSlice sp.base0.lenPhys sp.base0.lenSpec)
    (h1 : LinOp R sp.base1.forwardSlice sp.base1.lenPhys sp.base1.lenSpec) : ForwardFactors2 R sp := by
  intro N x y X Y hx a ha
  obtain ⟨φ0, c0, l0⟩ := h0
  obtain ⟨φ1, c1, l1⟩ := h1
  refine ⟨_, sp.forward_eq c0 c1 ha.1, ?_⟩
  have s1 := Spec.SumOf2.axis1 l1 c1.len y (fun r i => nth (x r) i) (fun r hr => (hx r hr).2.1) ha
  have s1' := s1.congr (t' := fun r i l => nth (Y r) l • nth ((x r).map (algebraMap R I)) i) (fun r hr i hi l hl => by
    rw [nth_map _ _ _ (by rw [(hx r hr).1]; exact hi), returns_of c1 (hx r hr).2.1 (hx r hr).2.2.2, smul_eq_mul,
      mul_comm, Algebra.smul_def])
  refine (Spec.SumOf2.axis0 l0 c0.len _ (fun r l => nth (Y r) l) (fun r hr => ?_) s1').congr (fun r hr k hk l hl => ?_)
  · rw [List.length_map]; exact (hx r hr).1
  · rw [returns_of c0 (by rw [List.length_map]; exact (hx r hr).1) (hx r hr).2.2.1]

/-- C110, `backward` in two dimensions. -/
theorem C110_space2_backward (sp : Space2 P I S T)
    (h0 : LinOp I sp.base0.backwardSlice sp.base0.lenSpec sp.base0.lenPhys)
    (h1 : LinOp R sp.base1.backwardSlice sp.base1.lenSpec sp.base1.lenPhys) : BackwardFactors2 R sp := by
  intro N x y X Y hx v hv
  obtain ⟨φ0, c0, l0⟩ := h0
  obtain ⟨φ1, c1, l1⟩ := h1
  refine ⟨_, sp.backward_eq c0 c1 hv.1, ?_⟩
  have s0 := Spec.SumOf2.axis0 l0 c0.len X (fun r l => nth (Y r) l) (fun r hr => (hx r hr).1) hv
  have s0' := s0.congr (t' := fun r i l => nth (x r) i • nth (Y r) l) (fun r hr i hi l hl => by
    have e := returns_of c0 (hx r hr).1 (hx r hr).2.2.1
    have el : (x r).length = sp.base0.lenPhys := by
      rw [← c0.len _ (hx r hr).1, ← e, List.length_map]
    rw [← e, nth_map _ _ _ (by rw [el]; exact hi), smul_eq_mul, mul_comm, Algebra.smul_def])
  refine (Spec.SumOf2.axis1 l1 c1.len Y (fun r i => nth (x r) i) (fun r hr => (hx r hr).2.1) s0').congr
    (fun r hr k hk l hl => ?_)
  rw [returns_of c1 (hx r hr).2.1 (hx r hr).2.2.2]

end

section
variable {R P I J S T : Type} [CommRing R] [AddCommGroup P] [Module R P] [CommRing I] [Algebra R I]
  [CommRing J] [Algebra I J] [AddCommGroup S] [Module J S] [Zero T]

/-- C110, `forward` in three dimensions. -/
theorem C110_space3_forward (sp : Space3 P I J S T)
    (h0 : LinOp J sp.base0.forwardSlice sp.base0.lenPhys sp.base0.lenSpec)
    (h1 : LinOp I sp.base1.forwardSlice sp.base1.lenPhys sp.base1.lenSpec)
    (h2 : LinOp R sp.base2.forwardSlice sp.base2.lenPhys sp.base2.lenSpec) : ForwardFactors3 R sp := by
  intro N x y z X Y Z hx a ha
  obtain ⟨φ0, c0, l0⟩ := h0
  obtain ⟨φ1, c1, l1⟩ := h1
  obtain ⟨φ2, c2, l2⟩ := h2
  refine ⟨_, sp.forward_eq c0 c1 c2 ha.1, ?_⟩
  have s2 := Spec.SumOf3.axis2 l2 c2.len z (fun r i j => nth (x r) i * nth (y r) j) (fun r hr => (hx r hr).2.2.1) ha
  have s2' := s2.congr (t' := fun r i j m => (nth (Z r) m * algebraMap R I (nth (x r) i)) •
      nth ((y r).map (algebraMap R I)) j) (fun r hr i hi j hj m hm => by
    rw [nth_map _ _ _ (by rw [(hx r hr).2.1]; exact hj), returns_of c2 (hx r hr).2.2.1 (hx r hr).2.2.2.2.2, smul_eq_mul,
      Algebra.smul_def, map_mul]
    ring)
  have s1 := Spec.SumOf3.axis1 l1 c1.len _ (fun r i m => nth (Z r) m * algebraMap R I (nth (x r) i))
    (fun r hr => by rw [List.length_map]; exact (hx r hr).2.1) s2'
  have s1' := s1.congr (t' := fun r i l m => (nth (Z r) m • nth (Y r) l) •
      nth ((x r).map fun t => algebraMap I J (algebraMap R I t)) i) (fun r hr i hi l hl m hm => by
    rw [nth_map _ _ _ (by rw [(hx r hr).1]; exact hi),
      returns_of c1 (by rw [List.length_map]; exact (hx r hr).2.1) (hx r hr).2.2.2.2.1, smul_eq_mul,
      Algebra.smul_def, Algebra.smul_def, map_mul]
    ring)
  refine (Spec.SumOf3.axis0 l0 c0.len _ (fun r l m => nth (Z r) m • nth (Y r) l)
    (fun r hr => by rw [List.length_map]; exact (hx r hr).1) s1').congr (fun r hr k hk l hl m hm => ?_)
  rw [returns_of c0 (by rw [List.length_map]; exact (hx r hr).1) (hx r hr).2.2.2.1]

/-- C110, `backward` in three dimensions. -/
theorem C110_space3_backward (sp : Space3 P I J S T)
    (h0 : LinOp J sp.base0.backwardSlice sp.base0.lenSpec sp.base0.lenPhys)
    (h1 : LinOp I sp.base1.backwardSlice sp.base1.lenSpec sp.base1.lenPhys)
    (h2 : LinOp R sp.base2.backwardSlice sp.base2.lenSpec sp.base2.lenPhys) : BackwardFactors3 R sp := by
  intro N x y z X Y Z hx v hv
  obtain ⟨φ0, c0, l0⟩ := h0
  obtain ⟨φ1, c1, l1⟩ := h1
  obtain ⟨φ2, c2, l2⟩ := h2
  refine ⟨_, sp.backward_eq c0 c1 c2 hv.1, ?_⟩
  have s0 := Spec.SumOf3.axis0 l0 c0.len X (fun r l m => nth (Z r) m • nth (Y r) l) (fun r hr => (hx r hr).1) hv
  have s0' := s0.congr (t' := fun r i l m => (nth (Z r) m * algebraMap R I (nth (x r) i)) • nth (Y r) l)
    (fun r hr i hi l hl m hm => by
      have e := returns_of c0 (hx r hr).1 (hx r hr).2.2.2.1
      have el : (x r).length = sp.base0.lenPhys := by rw [← c0.len _ (hx r hr).1, ← e, List.length_map]
      rw [← e, nth_map _ _ _ (by rw [el]; exact hi), smul_eq_mul, Algebra.smul_def, Algebra.smul_def, map_mul]
      ring)
  have s1 := Spec.SumOf3.axis1 l1 c1.len Y (fun r i m => nth (Z r) m * algebraMap R I (nth (x r) i))
    (fun r hr => (hx r hr).2.1) s0'
  have s1' := s1.congr (t' := fun r i j m => (nth (x r) i * nth (y r) j) • nth (Z r) m)
    (fun r hr i hi j hj m hm => by
      have e := returns_of c1 (hx r hr).2.1 (hx r hr).2.2.2.2.1
      have el : (y r).length = sp.base1.lenPhys := by rw [← c1.len _ (hx r hr).2.1, ← e, List.length_map]
      rw [← e, nth_map _ _ _ (by rw [el]; exact hj), smul_eq_mul, Algebra.smul_def, map_mul]
      ring)
  refine (Spec.SumOf3.axis2 l2 c2.len Z (fun r i j => nth (x r) i * nth (y r) j) (fun r hr => (hx r hr).2.2.1) s1').congr
    (fun r hr i hi j hj k hk => ?_)
  rw [returns_of c2 (hx r hr).2.2.1 (hx r hr).2.2.2.2.2]

end

section
variable {P I J S : Type} [Zero P] [Zero I] [Zero J] [CommRing S] [Algebra ℝ S]

omit [Algebra ℝ S] in
/-- two sweeps -/
theorem sumOf2_sweep {n0 n1 m0 m1 N : ℕ} {g0 g1 : List S → List S} {f0 f1 : List S → List S → Res (List S)}
    (c0 : Computes f0 n0 m0 g0) (l0 : IsLinear S n0 g0) (c1 : Computes f1 n1 m1 g1) (l1 : IsLinear S n1 g1)
    {X Y X' Y' : ℕ → List S}
    (hx : ∀ r < N, (X r).length = n0 ∧ (Y r).length = n1 ∧ Returns f0 m0 (X r) (X' r) ∧ Returns f1 m1 (Y r) (Y' r))
    {v : Arr S} (hv : SumOf2 v n0 n1 N (fun r k l => nth (X r) k * nth (Y r) l)) :
    SumOf2 (mapAx g1 m1 1 (mapAx g0 m0 0 v)) m0 m1 N fun r k l => nth (X' r) k * nth (Y' r) l := by
  have hv' := hv.congr (t' := fun r k l => nth (Y r) l • nth (X r) k) (fun r _ k _ l _ => by
    rw [smul_eq_mul, mul_comm])
  have s0 := Spec.SumOf2.axis0 l0 c0.len X (fun r l => nth (Y r) l) (fun r hr => (hx r hr).1) hv'
  have s0' := s0.congr (t' := fun r k l => nth (X' r) k • nth (Y r) l) (fun r hr k _ l _ => by
    rw [returns_of c0 (hx r hr).1 (hx r hr).2.2.1, smul_eq_mul, smul_eq_mul, mul_comm])
  refine (Spec.SumOf2.axis1 l1 c1.len Y (fun r k => nth (X' r) k) (fun r hr => (hx r hr).2.1) s0').congr
    (fun r hr k _ l _ => ?_)
  rw [returns_of c1 (hx r hr).2.1 (hx r hr).2.2.2, smul_eq_mul]

omit [Algebra ℝ S] in
/-- three sweeps -/
theorem sumOf3_sweep {n0 n1 n2 m0 m1 m2 N : ℕ} {g0 g1 g2 : List S → List S}
    {f0 f1 f2 : List S → List S → Res (List S)}
    (c0 : Computes f0 n0 m0 g0) (l0 : IsLinear S n0 g0) (c1 : Computes f1 n1 m1 g1) (l1 : IsLinear S n1 g1)
    (c2 : Computes f2 n2 m2 g2) (l2 : IsLinear S n2 g2) {X Y Z X' Y' Z' : ℕ → List S}
    (hx : ∀ r < N, (X r).length = n0 ∧ (Y r).length = n1 ∧ (Z r).length = n2 ∧
      Returns f0 m0 (X r) (X' r) ∧ Returns f1 m1 (Y r) (Y' r) ∧ Returns f2 m2 (Z r) (Z' r))
    {v : Arr S} (hv : SumOf3 v n0 n1 n2 N (fun r k l m => nth (X r) k * nth (Y r) l * nth (Z r) m)) :
    SumOf3 (mapAx g2 m2 2 (mapAx g1 m1 1 (mapAx g0 m0 0 v))) m0 m1 m2 N fun r k l m =>
      nth (X' r) k * nth (Y' r) l * nth (Z' r) m := by
  have hv' := hv.congr (t' := fun r k l m => (nth (Y r) l * nth (Z r) m) • nth (X r) k) (fun r _ k _ l _ m _ => by
    rw [smul_eq_mul]; ring)
  have s0 := Spec.SumOf3.axis0 l0 c0.len X (fun r l m => nth (Y r) l * nth (Z r) m) (fun r hr => (hx r hr).1) hv'
  have s0' := s0.congr (t' := fun r k l m => (nth (X' r) k * nth (Z r) m) • nth (Y r) l) (fun r hr k _ l _ m _ => by
    rw [returns_of c0 (hx r hr).1 (hx r hr).2.2.2.1, smul_eq_mul, smul_eq_mul]; ring)
  have s1 := Spec.SumOf3.axis1 l1 c1.len Y (fun r k m => nth (X' r) k * nth (Z r) m) (fun r hr => (hx r hr).2.1) s0'
  have s1' := s1.congr (t' := fun r k l m => (nth (X' r) k * nth (Y' r) l) • nth (Z r) m) (fun r hr k _ l _ m _ => by
    rw [returns_of c1 (hx r hr).2.1 (hx r hr).2.2.2.2.1, smul_eq_mul, smul_eq_mul]; ring)
  refine (Spec.SumOf3.axis2 l2 c2.len Z (fun r k l => nth (X' r) k * nth (Y' r) l) (fun r hr => (hx r hr).2.2.1)
    s1').congr (fun r hr k _ l _ m _ => ?_)
  rw [returns_of c2 (hx r hr).2.2.1 (hx r hr).2.2.2.2.2, smul_eq_mul]

/-- C110, `to_ortho`, `from_ortho` and `gradient` in two dimensions. -/
theorem C110_space2_spectral (sp : Space2 P I S S)
    (t0 : LinOp S sp.base0.toOrthoSlice sp.base0.lenSpec sp.base0.lenOrth)
    (t1 : LinOp S sp.base1.toOrthoSlice sp.base1.lenSpec sp.base1.lenOrth)
    (f0 : LinOp S sp.base0.fromOrthoSlice sp.base0.lenOrth sp.base0.lenSpec)
    (f1 : LinOp S sp.base1.fromOrthoSlice sp.base1.lenOrth sp.base1.lenSpec)
    (g0 : ∀ d, LinOp S (fun v out => sp.base0.gradientSlice v out d) sp.base0.lenSpec sp.base0.lenOrth)
    (g1 : ∀ d, LinOp S (fun v out => sp.base1.gradientSlice v out d) sp.base1.lenSpec sp.base1.lenOrth) :
    SpectralFactors2 sp where
  toOrtho N X Y X' Y' hx v hv := by
    obtain ⟨φ0, c0, l0⟩ := t0
    obtain ⟨φ1, c1, l1⟩ := t1
    exact ⟨_, sp.toOrtho_eq c0 c1 hv.1, sumOf2_sweep c0 l0 c1 l1 hx hv⟩
  fromOrtho N X Y X' Y' hx v hv := by
    obtain ⟨φ0, c0, l0⟩ := f0
    obtain ⟨φ1, c1, l1⟩ := f1
    exact ⟨_, sp.fromOrtho_eq c0 c1 hv.1, sumOf2_sweep c0 l0 c1 l1 hx hv⟩
  gradient d0 d1 s hs hne N X Y X' Y' hx v hv := by
    obtain ⟨φ0, c0, l0⟩ := g0 d0
    obtain ⟨φ1, c1, l1⟩ := g1 d1
    have h := sumOf2_sweep c0 l0 c1 l1 hx hv
    refine ⟨_, sp.gradient_eq c0 c1 hv.1 hs hne, good_scaleArr h.1, fun k hk l hl => ?_⟩
    rw [at_scaleArr, h.2 k hk l hl, Finset.smul_sum]

/-- C110, `to_ortho` and `from_ortho` in three dimensions. -/
theorem C110_space3_spectral (sp : Space3 P I J S S)
    (t0 : LinOp S sp.base0.toOrthoSlice sp.base0.lenSpec sp.base0.lenOrth)
    (t1 : LinOp S sp.base1.toOrthoSlice sp.base1.lenSpec sp.base1.lenOrth)
    (t2 : LinOp S sp.base2.toOrthoSlice sp.base2.lenSpec sp.base2.lenOrth)
    (f0 : LinOp S sp.base0.fromOrthoSlice sp.base0.lenOrth sp.base0.lenSpec)
    (f1 : LinOp S sp.base1.fromOrthoSlice sp.base1.lenOrth sp.base1.lenSpec)
    (f2 : LinOp S sp.base2.fromOrthoSlice sp.base2.lenOrth sp.base2.lenSpec) :
    SpectralFactors3 sp where
  toOrtho N X Y Z X' Y' Z' hx v hv := by
    obtain ⟨φ0, c0, l0⟩ := t0
    obtain ⟨φ1, c1, l1⟩ := t1
    obtain ⟨φ2, c2, l2⟩ := t2
    exact ⟨_, sp.toOrtho_eq c0 c1 c2 hv.1, sumOf3_sweep c0 l0 c1 l1 c2 l2 hx hv⟩
  fromOrtho N X Y Z X' Y' Z' hx v hv := by
    obtain ⟨φ0, c0, l0⟩ := f0
    obtain ⟨φ1, c1, l1⟩ := f1
    obtain ⟨φ2, c2, l2⟩ := f2
    exact ⟨_, sp.fromOrtho_eq c0 c1 c2 hv.1, sumOf3_sweep c0 l0 c1 l1 c2 l2 hx hv⟩

/-- C110, `gradient` in three dimensions, if the second and third base have the same number of coefficients. -/
theorem C110_space3_gradient (sp : Space3 P I J S S)
    (g0 : ∀ d, LinOp S (fun v out => sp.base0.gradientSlice v out d) sp.base0.lenSpec sp.base0.lenOrth)
    (g1 : ∀ d, LinOp S (fun v out => sp.base1.gradientSlice v out d) sp.base1.lenSpec sp.base1.lenOrth)
    (h21 : sp.base2.lenSpec = sp.base1.lenSpec) : GradientFactors3 sp := by
  intro d0 d1 d2 s hs hne N X Y Z X' Y' Z' hx v hv
  obtain ⟨φ0, c0, l0⟩ := g0 d0
  obtain ⟨φ1, c1, l1⟩ := g1 d1
  obtain ⟨φ2, c2, l2⟩ := g1 d2
  rw [h21] at hx
  have hv' := hv
  rw [h21] at hv'
  have h := sumOf3_sweep c0 l0 c1 l1 c2 l2 hx hv'
  refine ⟨_, sp.gradient_eq c0 c1 c2 h21 hv.1 hs hne, good_scaleArr h.1, fun k hk l hl m hm => ?_⟩
  rw [at_scaleArr, h.2 k hk l hl m hm, Finset.smul_sum]

end

section
variable {T : Type} [CommRing T] [Algebra ℝ T] {b : Base ℝ ℝ T}

theorem isFull_isR2r (h : IsFullR2r b) : IsR2r b := by
  obtain ⟨k, n, b0, hb, hm, hs, -, rfl⟩ := h
  exact ⟨k, n, b0, hb, hm, hs, rfl⟩

theorem isFull_gradLin (h : IsFullR2r b) (d : ℕ) :
    LinOp T (fun v out => b.gradientSlice v out d) b.lenSpec b.lenOrth := by
  obtain ⟨k, n, b0, hb, -, -, hg, rfl⟩ := h
  exact r2r_gradient_lin hb hg d

end

/-- C110 for the four kinds of two-dimensional spaces. -/
theorem C110_spaces2 (n0 n1 : ℕ) :
    (∀ sp : Space2 ℝ ℝ ℝ ℝ, IsFullR2r sp.base0 → IsFullR2r sp.base1 →
      ForwardFactors2 ℝ sp ∧ BackwardFactors2 ℝ sp ∧ SpectralFactors2 sp) ∧
    (∀ sp : Space2 ℝ ℝ ℂ ℂ, IsR2c n0 sp.base0 → IsFullR2r sp.base1 →
      ForwardFactors2 ℝ sp ∧ BackwardFactors2 ℝ sp ∧ SpectralFactors2 sp) ∧
    (∀ sp : Space2 ℝ ℂ ℂ ℂ, IsC2c n0 sp.base0 → IsR2c n1 sp.base1 →
      ForwardFactors2 ℝ sp ∧ BackwardFactors2 ℝ sp ∧ SpectralFactors2 sp) ∧
    (∀ sp : Space2 ℂ ℂ ℂ ℂ, IsC2c n0 sp.base0 → IsC2c n1 sp.base1 →
      ForwardFactors2 ℂ sp ∧ BackwardFactors2 ℂ sp ∧ SpectralFactors2 sp) := by
  refine ⟨fun sp h0 h1 => ?_, fun sp h0 h1 => ?_, fun sp h0 h1 => ?_, fun sp h0 h1 => ?_⟩
  · have r0 := isFull_isR2r h0
    have r1 := isFull_isR2r h1
    exact ⟨C110_space2_forward sp r0.fwdLin r1.fwdLin, C110_space2_backward sp r0.bwdLin r1.bwdLin,
      C110_space2_spectral sp r0.toLin r1.toLin r0.fromLin r1.fromLin (isFull_gradLin h0) (isFull_gradLin h1)⟩
  · have r1 := isFull_isR2r h1
    exact ⟨C110_space2_forward sp h0.fwdLin r1.fwdLin, C110_space2_backward sp h0.bwdLin r1.bwdLin,
      C110_space2_spectral sp h0.toLin r1.toLin h0.fromLin r1.fromLin h0.gradLin (isFull_gradLin h1)⟩
  · exact ⟨C110_space2_forward sp h0.fwdLin h1.fwdLin, C110_space2_backward sp h0.bwdLin h1.bwdLin,
      C110_space2_spectral sp h0.toLin h1.toLin h0.fromLin h1.fromLin h0.gradLin h1.gradLin⟩
  · exact ⟨C110_space2_forward sp h0.fwdLin h1.fwdLin, C110_space2_backward sp h0.bwdLin h1.bwdLin,
      C110_space2_spectral sp h0.toLin h1.toLin h0.fromLin h1.fromLin h0.gradLin h1.gradLin⟩

/-- C110 for the five kinds of three-dimensional spaces. -/
theorem C110_spaces3 (n0 n1 n2 : ℕ) :
    (∀ sp : Space3 ℝ ℝ ℝ ℝ ℝ, IsFullR2r sp.base0 → IsFullR2r sp.base1 → IsFullR2r sp.base2 →
      ForwardFactors3 ℝ sp ∧ BackwardFactors3 ℝ sp ∧ SpectralFactors3 sp ∧
        (sp.base2.lenSpec = sp.base1.lenSpec → GradientFactors3 sp)) ∧
    (∀ sp : Space3 ℝ ℝ ℝ ℂ ℂ, IsR2c n0 sp.base0 → IsFullR2r sp.base1 → IsFullR2r sp.base2 →
      ForwardFactors3 ℝ sp ∧ BackwardFactors3 ℝ sp ∧ SpectralFactors3 sp ∧
        (sp.base2.lenSpec = sp.base1.lenSpec → GradientFactors3 sp)) ∧
    (∀ sp : Space3 ℝ ℝ ℂ ℂ ℂ, IsC2c n0 sp.base0 → IsR2c n1 sp.base1 → IsFullR2r sp.base2 →
      ForwardFactors3 ℝ sp ∧ BackwardFactors3 ℝ sp ∧ SpectralFactors3 sp ∧
        (sp.base2.lenSpec = sp.base1.lenSpec → GradientFactors3 sp)) ∧
    (∀ sp : Space3 ℝ ℂ ℂ ℂ ℂ, IsC2c n0 sp.base0 → IsC2c n1 sp.base1 → IsR2c n2 sp.base2 →
      ForwardFactors3 ℝ sp ∧ BackwardFactors3 ℝ sp ∧ SpectralFactors3 sp ∧
        (sp.base2.lenSpec = sp.base1.lenSpec → GradientFactors3 sp)) ∧
    (∀ sp : Space3 ℂ ℂ ℂ ℂ ℂ, IsC2c n0 sp.base0 → IsC2c n1 sp.base1 → IsC2c n2 sp.base2 →
      ForwardFactors3 ℂ sp ∧ BackwardFactors3 ℂ sp ∧ SpectralFactors3 sp ∧
        (sp.base2.lenSpec = sp.base1.lenSpec → GradientFactors3 sp)) := by
  refine ⟨fun sp h0 h1 h2 => ?_, fun sp h0 h1 h2 => ?_, fun sp h0 h1 h2 => ?_, fun sp h0 h1 h2 => ?_,
    fun sp h0 h1 h2 => ?_⟩
  · have r0 := isFull_isR2r h0
    have r1 := isFull_isR2r h1
    have r2 := isFull_isR2r h2
    exact ⟨C110_space3_forward sp r0.fwdLin r1.fwdLin r2.fwdLin, C110_space3_backward sp r0.bwdLin r1.bwdLin r2.bwdLin,
      C110_space3_spectral sp r0.toLin r1.toLin r2.toLin r0.fromLin r1.fromLin r2.fromLin,
      C110_space3_gradient sp (isFull_gradLin h0) (isFull_gradLin h1)⟩
  · have r1 := isFull_isR2r h1
    have r2 := isFull_isR2r h2
    exact ⟨C110_space3_forward sp h0.fwdLin r1.fwdLin r2.fwdLin, C110_space3_backward sp h0.bwdLin r1.bwdLin r2.bwdLin,
      C110_space3_spectral sp h0.toLin r1.toLin r2.toLin h0.fromLin r1.fromLin r2.fromLin,
      C110_space3_gradient sp h0.gradLin (isFull_gradLin h1)⟩
  · have r2 := isFull_isR2r h2
    exact ⟨C110_space3_forward sp h0.fwdLin h1.fwdLin r2.fwdLin, C110_space3_backward sp h0.bwdLin h1.bwdLin r2.bwdLin,
      C110_space3_spectral sp h0.toLin h1.toLin r2.toLin h0.fromLin h1.fromLin r2.fromLin,
      C110_space3_gradient sp h0.gradLin h1.gradLin⟩
  · exact ⟨C110_space3_forward sp h0.fwdLin h1.fwdLin h2.fwdLin, C110_space3_backward sp h0.bwdLin h1.bwdLin h2.bwdLin,
      C110_space3_spectral sp h0.toLin h1.toLin h2.toLin h0.fromLin h1.fromLin h2.fromLin,
      C110_space3_gradient sp h0.gradLin h1.gradLin⟩
  · exact ⟨C110_space3_forward sp h0.fwdLin h1.fwdLin h2.fwdLin, C110_space3_backward sp h0.bwdLin h1.bwdLin h2.bwdLin,
      C110_space3_spectral sp h0.toLin h1.toLin h2.toLin h0.fromLin h1.fromLin h2.fromLin,
      C110_space3_gradient sp h0.gradLin h1.gradLin⟩

/-- C110 says what the operations do to every array: every array is a sum of products (of the unit vectors and its
rows). -/
theorem C110_every_array2 {P : Type} [AddCommGroup P] [Module ℝ P] (n0 n1 : ℕ) (a : Arr P) (ha : Good a [n0, n1]) :
    ∃ (x : ℕ → List ℝ) (y : ℕ → List P), (∀ r < n0, (x r).length = n0 ∧ (y r).length = n1) ∧
      SumOf2 a n0 n1 n0 fun r i j => nth (x r) i • nth (y r) j := by
  refine ⟨fun r => (List.range n0).map fun i => if r = i then 1 else 0, fun r => (List.range n1).map fun j => at_ a [r, j],
    fun r _ => ⟨by simp, by simp⟩, ha, fun i hi j hj => ?_⟩
  rw [Finset.sum_eq_single i]
  · dsimp only
    rw [nth_map_range _ _ _ hi, nth_map_range _ _ _ hj, if_pos rfl, one_smul]
  · intro r _ hr
    dsimp only
    rw [nth_map_range _ _ _ hi, if_neg hr, zero_smul]
  · intro h; exact absurd (mem_range.mpr hi) h

/-- C110, concretely: the hypotheses are met in the space `fourier_r2c(8) × cheb_dirichlet(6)` by every pair of
vectors of 8 and 6 real numbers. -/
example (x y : List ℝ) (hx : x.length = 8) (hy : y.length = 6) :
    ∃ (sp : Space2 ℝ ℝ ℂ ℂ) (X : List ℂ) (Y : List ℝ) (v : Arr ℂ),
      Returns sp.base0.forwardSlice 5 x X ∧ Returns sp.base1.forwardSlice 4 y Y ∧
      sp.forward ⟨[8, 6], (List.range 48).map fun p => nth x (p / 6) * nth y (p % 6), true⟩ = ok v ∧
      ∀ k < 5, ∀ l < 4, at_ v [k, l] = nth Y l • nth X k := by
  obtain ⟨b0, h0, p0, s0, -⟩ := isR2c_exists (n := 8) (by decide)
  obtain ⟨b, hb⟩ := newR2r_exists (some .dirichlet) 6 (by decide) (by rintro c ⟨⟩; decide)
  have h1 : IsFullR2r (b.toBase ℂ) := ⟨some .dirichlet, 6, b, hb, Or.inl rfl, by show 5 ≤ 6; decide, Or.inl rfl, rfl⟩
  have l1 : (b.toBase ℂ).lenPhys = 6 ∧ (b.toBase ℂ).lenSpec = 4 := by
    obtain ⟨c, hc, rfl⟩ := composite_inv hb
    have hw := Compo.wf_of_new hc
    exact ⟨hw.n_eq, by show c.m = 4; rw [hw.m_eq]; rfl⟩
  obtain ⟨φ0, c0, -⟩ := h0.fwdLin
  obtain ⟨φ1, c1, -⟩ := (isFull_isR2r h1).fwdLin
  have e0 : Returns b0.forwardSlice 5 x (φ0 x) := fun out ho => (c0 x out (hx.trans p0.symm) (ho.trans s0.symm)).1
  have e1 : Returns (b.toBase ℂ).forwardSlice 4 y (φ1 y) := fun out ho =>
    (c1 y out (hy.trans l1.1.symm) (ho.trans l1.2.symm)).1
  obtain ⟨v, hv, h⟩ := ((C110_spaces2 8 6).2.1 (Space2.new b0 (b.toBase ℂ)) h0 h1).1 1 (fun _ => x) (fun _ => y)
    (fun _ => φ0 x) (fun _ => φ1 y)
    (fun r _ => ⟨hx.trans p0.symm, hy.trans l1.1.symm, by
      rw [show x.map (algebraMap ℝ ℝ) = x from List.map_id x]
      show Returns b0.forwardSlice b0.lenSpec x (φ0 x)
      rw [s0]; exact e0, by
      show Returns (b.toBase ℂ).forwardSlice (b.toBase ℂ).lenSpec y (φ1 y)
      rw [l1.2]; exact e1⟩)
    ⟨[8, 6], (List.range 48).map fun p => nth x (p / 6) * nth y (p % 6), true⟩
    (by
      show SumOf2 _ b0.lenPhys (b.toBase ℂ).lenPhys _ _
      rw [p0, l1.1]
      refine ⟨⟨by simp [Arr.WF], rfl, rfl⟩, fun i hi j hj => ?_⟩
      rw [Finset.sum_range_one]
      show nth ((List.range 48).map fun p => nth x (p / 6) * nth y (p % 6)) (flat [8, 6] [i, j]) = _
      have e : flat [8, 6] [i, j] = i * 6 + j := by simp [flat]
      rw [e, nth_map_range _ _ _ (by omega), show (i * 6 + j) / 6 = i by omega, show (i * 6 + j) % 6 = j by omega]
      rfl)
  refine ⟨_, _, _, v, e0, e1, hv, fun k hk l hl => ?_⟩
  rw [h.2 k (by show k < b0.lenSpec; rw [s0]; exact hk) l (by show l < (b.toBase ℂ).lenSpec; rw [l1.2]; exact hl),
    Finset.sum_range_one]

end Verif.Props
