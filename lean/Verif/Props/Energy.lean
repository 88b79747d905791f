/-
Property C108: the transforms of spaces of any dimension preserve the energy (Parseval).
-/
import Verif.Spec.Energy
import Verif.Props.ChebInner
import Verif.Props.FourierRel
import Verif.Props.SpaceInst
import Verif.Proof.SpaceEx

namespace Verif.Props
open Res Spec Finset

/-- C108: the orthogonal bases preserve the energy. -/
theorem C108_bases :
    (∀ {T : Type} [AddCommGroup T] [Module ℝ T] (n : ℕ) (b : Base ℝ ℝ T), IsCheb n b →
      KeepsEnergy b (chebGridW n) (chebModeW n)) ∧
    (∀ n b, IsR2c n b → KeepsEnergy b (fun _ => 1) (r2cModeW n)) ∧
    (∀ n b, IsC2c n b → KeepsEnergy b (fun _ => 1) (c2cModeW n)) := by
  refine ⟨?_, ?_, ?_⟩
  · rintro T _ _ n _ ⟨b0, hb, rfl⟩
    obtain ⟨φ, hφ⟩ := LinOp.computes (r2r_forward_lin (T := T) (k := none) hb trivial)
    refine ⟨φ, hφ, fun v hv => ?_⟩
    obtain ⟨hn, rfl⟩ := chebyshev_inv (show newR2r none n = ok b0 from hb)
    obtain ⟨a, ha, h⟩ := C90_energy n ⟨n, n⟩ (cheb_new_ok hn) v (List.replicate n 0) hv (List.length_replicate ..)
    have h2 := (hφ v (List.replicate n 0) hv (List.length_replicate ..)).1
    obtain rfl : a = φ v := Res.ok.inj (ha.symm.trans h2)
    show ∑ j ∈ range n, _ = ∑ k ∈ range n, _
    simp only [Real.norm_eq_abs, sq_abs]
    refine Eq.trans ?_ (h.trans ?_)
    · rfl
    · rw [Finset.mul_sum]
      refine Finset.sum_congr rfl fun k _ => ?_
      unfold modeWeight chebModeW; ring
  · rintro n _ ⟨hn, b0, hb, rfl⟩
    obtain ⟨φ, hφ⟩ := LinOp.computes (r2c_laws hn hb).1.1
    refine ⟨φ, hφ, fun v hv => ?_⟩
    obtain rfl := r2c_inv hb
    obtain ⟨a, ha, h⟩ := C67_r2c_energy n hn ⟨n, n / 2 + 1⟩ rfl v (List.replicate (n / 2 + 1) 0) hv
      (List.length_replicate ..)
    have h2 := (hφ v (List.replicate (n / 2 + 1) 0) hv (List.length_replicate ..)).1
    obtain rfl : a = φ v := Res.ok.inj (ha.symm.trans h2)
    show ∑ j ∈ range n, _ = ∑ k ∈ range (n / 2 + 1), _
    have hn' : (n : ℝ) ≠ 0 := by exact_mod_cast (by omega : n ≠ 0)
    have e : ∑ k ∈ range (n / 2 + 1), r2cModeW n k * ‖nth (φ v) k‖ ^ 2
        = (1 / n) * ∑ k ∈ range (n / 2 + 1), (if k = 0 ∨ 2 * k = n then 1 else 2) * Complex.normSq (nth (φ v) k) := by
      rw [Finset.mul_sum]
      refine Finset.sum_congr rfl fun k _ => ?_
      rw [Complex.normSq_eq_norm_sq]; unfold r2cModeW; ring
    rw [e, h, ← mul_assoc, one_div, inv_mul_cancel₀ hn', one_mul]
    refine Finset.sum_congr rfl fun j _ => ?_
    rw [Real.norm_eq_abs, sq_abs, one_mul]
  · rintro n _ ⟨hn, b0, hb, rfl⟩
    obtain ⟨φ, hφ⟩ := LinOp.computes (c2c_laws hn hb).1.1
    refine ⟨φ, hφ, fun v hv => ?_⟩
    obtain rfl := c2c_inv hb
    obtain ⟨a, ha, h⟩ := C67_c2c_energy n hn ⟨n, n⟩ rfl v (List.replicate n 0) hv (List.length_replicate ..)
    have h2 := (hφ v (List.replicate n 0) hv (List.length_replicate ..)).1
    obtain rfl : a = φ v := Res.ok.inj (ha.symm.trans h2)
    show ∑ j ∈ range n, _ = ∑ k ∈ range n, _
    have hn' : (n : ℝ) ≠ 0 := by exact_mod_cast (by omega : n ≠ 0)
    have e : ∑ k ∈ range n, c2cModeW n k * ‖nth (φ v) k‖ ^ 2
        = (1 / n) * ∑ k ∈ range n, Complex.normSq (nth (φ v) k) := by
      rw [Finset.mul_sum]
      refine Finset.sum_congr rfl fun k _ => ?_
      rw [Complex.normSq_eq_norm_sq]; rfl
    rw [e, h, ← mul_assoc, one_div, inv_mul_cancel₀ hn', one_mul]
    refine Finset.sum_congr rfl fun j _ => ?_
    rw [Complex.normSq_eq_norm_sq, one_mul]

private theorem nth_lane {T : Type} [Zero T] (a : Arr T) {ax : ℕ} {idx : List ℕ} {k n : ℕ}
    (hs : a.shape.getD ax 0 = n) (hk : k < n) : nth (laneAt a ax idx) k = at_ a (idx.set ax k) := by
  unfold laneAt
  rw [hs, nth_map_range _ _ _ hk]

private theorem lane_length {T : Type} [Zero T] (a : Arr T) {ax : ℕ} {idx : List ℕ} {n : ℕ}
    (hs : a.shape.getD ax 0 = n) : (laneAt a ax idx).length = n := by
  unfold laneAt; rw [hs]; simp

/-- C108: Space1. -/
theorem C108_space1 {P S T : Type} [NormedAddCommGroup P] [NormedAddCommGroup S] [Zero T] (sp : Space1 P S T)
    {wp ws : ℕ → ℝ} (h0 : KeepsEnergy sp.base0 wp ws) {x : Arr P} (hx : Good x sp.shapePhysical) :
    ∃ v, sp.forward x = ok v ∧ Good v sp.shapeSpectral ∧
      ∑ p ∈ range sp.base0.lenPhys, wp p * ‖at_ x [p]‖ ^ 2
        = ∑ i ∈ range sp.base0.lenSpec, ws i * ‖at_ v [i]‖ ^ 2 := by
  obtain ⟨φ, hφ, h⟩ := h0
  refine ⟨_, sp.forward_eq hφ hx, good_mapAx φ sp.base0.lenSpec 0 hx.2.2, ?_⟩
  have hs : x.shape.getD 0 0 = sp.base0.lenPhys := by rw [hx.2.2]; rfl
  have e := h (laneAt x 0 [0]) (lane_length x hs)
  rw [Finset.sum_congr rfl (fun p hp => by
    rw [nth_lane x hs (mem_range.mp hp)] : ∀ p ∈ range sp.base0.lenPhys, wp p * ‖nth (laneAt x 0 [0]) p‖ ^ 2 = _)] at e
  refine Eq.trans e (Finset.sum_congr rfl fun i hi => ?_)
  have hi := mem_range.mp hi
  rw [at_mapAx (sh := [sp.base0.lenPhys]) hx.2.2 (by simpa [InBounds] using hi)]
  rfl

/-- C108: Space2. The energies of the two directions multiply. -/
theorem C108_space2 {P I S T : Type} [NormedAddCommGroup P] [NormedAddCommGroup I] [NormedAddCommGroup S] [Zero T]
    (sp : Space2 P I S T) {wp0 ws0 wp1 ws1 : ℕ → ℝ} (h0 : KeepsEnergy sp.base0 wp0 ws0)
    (h1 : KeepsEnergy sp.base1 wp1 ws1) {x : Arr P} (hx : Good x sp.shapePhysical) :
    ∃ v, sp.forward x = ok v ∧ Good v sp.shapeSpectral ∧
      ∑ p ∈ range sp.base0.lenPhys, ∑ q ∈ range sp.base1.lenPhys, wp0 p * wp1 q * ‖at_ x [p, q]‖ ^ 2
        = ∑ i ∈ range sp.base0.lenSpec, ∑ j ∈ range sp.base1.lenSpec, ws0 i * ws1 j * ‖at_ v [i, j]‖ ^ 2 := by
  obtain ⟨φ0, hφ0, e0⟩ := h0
  obtain ⟨φ1, hφ1, e1⟩ := h1
  have k1 := good_mapAx φ1 sp.base1.lenSpec 1 hx.2.2
  refine ⟨_, sp.forward_eq hφ0 hφ1 hx, good_mapAx φ0 sp.base0.lenSpec 0 k1.2.2, ?_⟩
  set y := mapAx φ1 sp.base1.lenSpec 1 x with hy
  have hs1 : x.shape.getD 1 0 = sp.base1.lenPhys := by rw [hx.2.2]; rfl
  have hs0 : y.shape.getD 0 0 = sp.base0.lenPhys := by rw [k1.2.2]; rfl
  have s1 : ∀ p < sp.base0.lenPhys, ∑ q ∈ range sp.base1.lenPhys, wp1 q * ‖at_ x [p, q]‖ ^ 2
      = ∑ j ∈ range sp.base1.lenSpec, ws1 j * ‖at_ y [p, j]‖ ^ 2 := by
    intro p hp
    have e := e1 (laneAt x 1 [p, 0]) (lane_length x hs1)
    refine Eq.trans (Finset.sum_congr rfl fun q hq => ?_) (e.trans (Finset.sum_congr rfl fun j hj => ?_))
    · rw [nth_lane x hs1 (mem_range.mp hq)]; rfl
    · have hj := mem_range.mp hj
      rw [hy, at_mapAx (sh := [sp.base0.lenPhys, sp.base1.lenPhys]) hx.2.2
        (by simpa [InBounds] using And.intro hp hj)]
      rfl
  have s0 : ∀ j < sp.base1.lenSpec, ∑ p ∈ range sp.base0.lenPhys, wp0 p * ‖at_ y [p, j]‖ ^ 2
      = ∑ i ∈ range sp.base0.lenSpec, ws0 i * ‖at_ (mapAx φ0 sp.base0.lenSpec 0 y) [i, j]‖ ^ 2 := by
    intro j hj
    have e := e0 (laneAt y 0 [0, j]) (lane_length y hs0)
    refine Eq.trans (Finset.sum_congr rfl fun q hq => ?_) (e.trans (Finset.sum_congr rfl fun i hi => ?_))
    · rw [nth_lane y hs0 (mem_range.mp hq)]; rfl
    · have hi := mem_range.mp hi
      rw [at_mapAx (sh := [sp.base0.lenPhys, sp.base1.lenSpec]) k1.2.2
        (by simpa [InBounds] using And.intro hi hj)]
      rfl
  calc _ = ∑ p ∈ range sp.base0.lenPhys, wp0 p * ∑ q ∈ range sp.base1.lenPhys, wp1 q * ‖at_ x [p, q]‖ ^ 2 := by
        refine Finset.sum_congr rfl fun p _ => ?_
        rw [Finset.mul_sum]; exact Finset.sum_congr rfl fun q _ => by ring
    _ = ∑ p ∈ range sp.base0.lenPhys, wp0 p * ∑ j ∈ range sp.base1.lenSpec, ws1 j * ‖at_ y [p, j]‖ ^ 2 :=
        Finset.sum_congr rfl fun p hp => by rw [s1 p (mem_range.mp hp)]
    _ = ∑ j ∈ range sp.base1.lenSpec, ws1 j * ∑ p ∈ range sp.base0.lenPhys, wp0 p * ‖at_ y [p, j]‖ ^ 2 := by
        simp only [Finset.mul_sum]
        rw [Finset.sum_comm]
        exact Finset.sum_congr rfl fun j _ => Finset.sum_congr rfl fun p _ => by ring
    _ = ∑ j ∈ range sp.base1.lenSpec, ws1 j * ∑ i ∈ range sp.base0.lenSpec,
          ws0 i * ‖at_ (mapAx φ0 sp.base0.lenSpec 0 y) [i, j]‖ ^ 2 :=
        Finset.sum_congr rfl fun j hj => by rw [s0 j (mem_range.mp hj)]
    _ = _ := by
        simp only [Finset.mul_sum]
        rw [Finset.sum_comm]
        exact Finset.sum_congr rfl fun j _ => Finset.sum_congr rfl fun p _ => by ring

/-- C108: Space3. -/
theorem C108_space3 {P I J S T : Type} [NormedAddCommGroup P] [NormedAddCommGroup I] [NormedAddCommGroup J]
    [NormedAddCommGroup S] [Zero T]
    (sp : Space3 P I J S T) {wp0 ws0 wp1 ws1 wp2 ws2 : ℕ → ℝ} (h0 : KeepsEnergy sp.base0 wp0 ws0)
    (h1 : KeepsEnergy sp.base1 wp1 ws1) (h2 : KeepsEnergy sp.base2 wp2 ws2) {x : Arr P}
    (hx : Good x sp.shapePhysical) :
    ∃ v, sp.forward x = ok v ∧ Good v sp.shapeSpectral ∧
      ∑ p ∈ range sp.base0.lenPhys, ∑ q ∈ range sp.base1.lenPhys, ∑ r ∈ range sp.base2.lenPhys,
          wp0 p * wp1 q * wp2 r * ‖at_ x [p, q, r]‖ ^ 2
        = ∑ i ∈ range sp.base0.lenSpec, ∑ j ∈ range sp.base1.lenSpec, ∑ k ∈ range sp.base2.lenSpec,
          ws0 i * ws1 j * ws2 k * ‖at_ v [i, j, k]‖ ^ 2 := by
  obtain ⟨φ0, hφ0, e0⟩ := h0
  obtain ⟨φ1, hφ1, e1⟩ := h1
  obtain ⟨φ2, hφ2, e2⟩ := h2
  have k2 := good_mapAx φ2 sp.base2.lenSpec 2 hx.2.2
  have k1 := good_mapAx φ1 sp.base1.lenSpec 1 k2.2.2
  refine ⟨_, sp.forward_eq hφ0 hφ1 hφ2 hx, good_mapAx φ0 sp.base0.lenSpec 0 k1.2.2, ?_⟩
  set z := mapAx φ2 sp.base2.lenSpec 2 x with hz
  set y := mapAx φ1 sp.base1.lenSpec 1 z with hy
  have hs2 : x.shape.getD 2 0 = sp.base2.lenPhys := by rw [hx.2.2]; rfl
  have hs1 : z.shape.getD 1 0 = sp.base1.lenPhys := by rw [k2.2.2]; rfl
  have hs0 : y.shape.getD 0 0 = sp.base0.lenPhys := by rw [k1.2.2]; rfl
  have s2 : ∀ p < sp.base0.lenPhys, ∀ q < sp.base1.lenPhys, ∑ r ∈ range sp.base2.lenPhys, wp2 r * ‖at_ x [p, q, r]‖ ^ 2
      = ∑ k ∈ range sp.base2.lenSpec, ws2 k * ‖at_ z [p, q, k]‖ ^ 2 := by
    intro p hp q hq
    have e := e2 (laneAt x 2 [p, q, 0]) (lane_length x hs2)
    refine Eq.trans (Finset.sum_congr rfl fun q hq => ?_) (e.trans (Finset.sum_congr rfl fun j hj => ?_))
    · rw [nth_lane x hs2 (mem_range.mp hq)]; rfl
    · have hj := mem_range.mp hj
      rw [hz, at_mapAx (sh := [sp.base0.lenPhys, sp.base1.lenPhys, sp.base2.lenPhys]) hx.2.2
        (by simpa [InBounds] using And.intro hp (And.intro hq hj))]
      rfl
  have s1 : ∀ p < sp.base0.lenPhys, ∀ k < sp.base2.lenSpec, ∑ q ∈ range sp.base1.lenPhys, wp1 q * ‖at_ z [p, q, k]‖ ^ 2
      = ∑ j ∈ range sp.base1.lenSpec, ws1 j * ‖at_ y [p, j, k]‖ ^ 2 := by
    intro p hp k hk
    have e := e1 (laneAt z 1 [p, 0, k]) (lane_length z hs1)
    refine Eq.trans (Finset.sum_congr rfl fun q hq => ?_) (e.trans (Finset.sum_congr rfl fun j hj => ?_))
    · rw [nth_lane z hs1 (mem_range.mp hq)]; rfl
    · have hj := mem_range.mp hj
      rw [hy, at_mapAx (sh := [sp.base0.lenPhys, sp.base1.lenPhys, sp.base2.lenSpec]) k2.2.2
        (by simpa [InBounds] using And.intro hp (And.intro hj hk))]
      rfl
  have s0 : ∀ j < sp.base1.lenSpec, ∀ k < sp.base2.lenSpec, ∑ p ∈ range sp.base0.lenPhys, wp0 p * ‖at_ y [p, j, k]‖ ^ 2
      = ∑ i ∈ range sp.base0.lenSpec, ws0 i * ‖at_ (mapAx φ0 sp.base0.lenSpec 0 y) [i, j, k]‖ ^ 2 := by
    intro j hj k hk
    have e := e0 (laneAt y 0 [0, j, k]) (lane_length y hs0)
    refine Eq.trans (Finset.sum_congr rfl fun q hq => ?_) (e.trans (Finset.sum_congr rfl fun i hi => ?_))
    · rw [nth_lane y hs0 (mem_range.mp hq)]; rfl
    · have hi := mem_range.mp hi
      rw [at_mapAx (sh := [sp.base0.lenPhys, sp.base1.lenSpec, sp.base2.lenSpec]) k1.2.2
        (by simpa [InBounds] using And.intro hi (And.intro hj hk))]
      rfl
  calc _ = ∑ p ∈ range sp.base0.lenPhys, ∑ q ∈ range sp.base1.lenPhys, wp0 p * wp1 q *
          ∑ r ∈ range sp.base2.lenPhys, wp2 r * ‖at_ x [p, q, r]‖ ^ 2 := by
        refine Finset.sum_congr rfl fun p _ => Finset.sum_congr rfl fun q _ => ?_
        rw [Finset.mul_sum]; exact Finset.sum_congr rfl fun q _ => by ring
    _ = ∑ p ∈ range sp.base0.lenPhys, ∑ q ∈ range sp.base1.lenPhys, wp0 p * wp1 q *
          ∑ k ∈ range sp.base2.lenSpec, ws2 k * ‖at_ z [p, q, k]‖ ^ 2 :=
        Finset.sum_congr rfl fun p hp => Finset.sum_congr rfl fun q hq => by
          rw [s2 p (mem_range.mp hp) q (mem_range.mp hq)]
    _ = ∑ p ∈ range sp.base0.lenPhys, ∑ k ∈ range sp.base2.lenSpec, wp0 p * ws2 k *
          ∑ q ∈ range sp.base1.lenPhys, wp1 q * ‖at_ z [p, q, k]‖ ^ 2 := by
        simp only [Finset.mul_sum]
        refine Finset.sum_congr rfl fun p _ => ?_
        rw [Finset.sum_comm]
        exact Finset.sum_congr rfl fun j _ => Finset.sum_congr rfl fun p _ => by ring
    _ = ∑ p ∈ range sp.base0.lenPhys, ∑ k ∈ range sp.base2.lenSpec, wp0 p * ws2 k *
          ∑ j ∈ range sp.base1.lenSpec, ws1 j * ‖at_ y [p, j, k]‖ ^ 2 :=
        Finset.sum_congr rfl fun p hp => Finset.sum_congr rfl fun k hk => by
          rw [s1 p (mem_range.mp hp) k (mem_range.mp hk)]
    _ = ∑ k ∈ range sp.base2.lenSpec, ∑ j ∈ range sp.base1.lenSpec, ws1 j * ws2 k *
          ∑ p ∈ range sp.base0.lenPhys, wp0 p * ‖at_ y [p, j, k]‖ ^ 2 := by
        simp only [Finset.mul_sum]
        rw [Finset.sum_comm]
        refine Finset.sum_congr rfl fun k _ => ?_
        rw [Finset.sum_comm]
        exact Finset.sum_congr rfl fun j _ => Finset.sum_congr rfl fun p _ => by ring
    _ = ∑ k ∈ range sp.base2.lenSpec, ∑ j ∈ range sp.base1.lenSpec, ws1 j * ws2 k *
          ∑ i ∈ range sp.base0.lenSpec, ws0 i * ‖at_ (mapAx φ0 sp.base0.lenSpec 0 y) [i, j, k]‖ ^ 2 :=
        Finset.sum_congr rfl fun k hk => Finset.sum_congr rfl fun j hj => by
          rw [s0 j (mem_range.mp hj) k (mem_range.mp hk)]
    _ = _ := by
        simp only [Finset.mul_sum]
        rw [Finset.sum_comm]
        conv_rhs => rw [Finset.sum_comm]
        refine Finset.sum_congr rfl fun j _ => ?_
        rw [Finset.sum_comm]
        exact Finset.sum_congr rfl fun i _ => Finset.sum_congr rfl fun k _ => by ring

/-- C108 for the spaces of the library in two dimensions: Chebyshev × Chebyshev, real Fourier × Chebyshev, complex Fourier × real Fourier
and complex Fourier × complex Fourier. -/
theorem C108_spaces2 (n0 n1 : ℕ) :
    (∀ (sp : Space2 ℝ ℝ ℝ ℝ) (x : Arr ℝ), IsCheb n0 sp.base0 → IsCheb n1 sp.base1 → Good x [n0, n1] →
      ∃ v, sp.forward x = ok v ∧ ∑ p ∈ range n0, ∑ q ∈ range n1, chebGridW n0 p * chebGridW n1 q * at_ x [p, q] ^ 2
        = ∑ i ∈ range n0, ∑ j ∈ range n1, chebModeW n0 i * chebModeW n1 j * at_ v [i, j] ^ 2) ∧
    (∀ (sp : Space2 ℝ ℝ ℂ ℂ) (x : Arr ℝ), IsR2c n0 sp.base0 → IsCheb n1 sp.base1 → Good x [n0, n1] →
      ∃ v, sp.forward x = ok v ∧ ∑ p ∈ range n0, ∑ q ∈ range n1, chebGridW n1 q * at_ x [p, q] ^ 2
        = ∑ i ∈ range (n0 / 2 + 1), ∑ j ∈ range n1, r2cModeW n0 i * chebModeW n1 j * ‖at_ v [i, j]‖ ^ 2) ∧
    (∀ (sp : Space2 ℝ ℂ ℂ ℂ) (x : Arr ℝ), IsC2c n0 sp.base0 → IsR2c n1 sp.base1 → Good x [n0, n1] →
      ∃ v, sp.forward x = ok v ∧ ∑ p ∈ range n0, ∑ q ∈ range n1, at_ x [p, q] ^ 2
        = ∑ i ∈ range n0, ∑ j ∈ range (n1 / 2 + 1), c2cModeW n0 i * r2cModeW n1 j * ‖at_ v [i, j]‖ ^ 2) ∧
    (∀ (sp : Space2 ℂ ℂ ℂ ℂ) (x : Arr ℂ), IsC2c n0 sp.base0 → IsC2c n1 sp.base1 → Good x [n0, n1] →
      ∃ v, sp.forward x = ok v ∧ ∑ p ∈ range n0, ∑ q ∈ range n1, ‖at_ x [p, q]‖ ^ 2
        = ∑ i ∈ range n0, ∑ j ∈ range n1, c2cModeW n0 i * c2cModeW n1 j * ‖at_ v [i, j]‖ ^ 2) := by
  obtain ⟨hc, hr, hcc⟩ := C108_bases
  have lc : ∀ {T : Type} [AddCommGroup T] [Module ℝ T] (n : ℕ) (b : Base ℝ ℝ T), IsCheb n b →
      b.lenPhys = n ∧ b.lenSpec = n := by
    rintro T _ _ n _ ⟨b0, hb, rfl⟩
    obtain ⟨-, rfl⟩ := chebyshev_inv (show newR2r none n = ok b0 from hb)
    exact ⟨rfl, rfl⟩
  have lr : ∀ (n : ℕ) (b : Base ℝ ℂ ℂ), IsR2c n b → b.lenPhys = n ∧ b.lenSpec = n / 2 + 1 := by
    rintro n _ ⟨-, b0, hb, rfl⟩
    obtain rfl := r2c_inv hb
    exact ⟨rfl, rfl⟩
  have lcc : ∀ (n : ℕ) (b : Base ℂ ℂ ℂ), IsC2c n b → b.lenPhys = n ∧ b.lenSpec = n := by
    rintro n _ ⟨-, b0, hb, rfl⟩
    obtain rfl := c2c_inv hb
    exact ⟨rfl, rfl⟩
  refine ⟨fun sp x h0 h1 hx => ?_, fun sp x h0 h1 hx => ?_, fun sp x h0 h1 hx => ?_, fun sp x h0 h1 hx => ?_⟩
  · obtain ⟨v, hv, -, h⟩ := C108_space2 sp (hc _ _ h0) (hc _ _ h1) (x := x)
      (by unfold Space2.shapePhysical; rw [(lc _ _ h0).1, (lc _ _ h1).1]; exact hx)
    rw [(lc _ _ h0).1, (lc _ _ h1).1, (lc _ _ h0).2, (lc _ _ h1).2] at h
    exact ⟨v, hv, by simpa only [Real.norm_eq_abs, sq_abs] using h⟩
  · obtain ⟨v, hv, -, h⟩ := C108_space2 sp (hr _ _ h0) (hc _ _ h1) (x := x)
      (by unfold Space2.shapePhysical; rw [(lr _ _ h0).1, (lc _ _ h1).1]; exact hx)
    rw [(lr _ _ h0).1, (lc _ _ h1).1, (lr _ _ h0).2, (lc _ _ h1).2] at h
    exact ⟨v, hv, by simpa only [Real.norm_eq_abs, sq_abs, one_mul] using h⟩
  · obtain ⟨v, hv, -, h⟩ := C108_space2 sp (hcc _ _ h0) (hr _ _ h1) (x := x)
      (by unfold Space2.shapePhysical; rw [(lcc _ _ h0).1, (lr _ _ h1).1]; exact hx)
    rw [(lcc _ _ h0).1, (lr _ _ h1).1, (lcc _ _ h0).2, (lr _ _ h1).2] at h
    exact ⟨v, hv, by simpa only [Real.norm_eq_abs, sq_abs, one_mul] using h⟩
  · obtain ⟨v, hv, -, h⟩ := C108_space2 sp (hcc _ _ h0) (hcc _ _ h1) (x := x)
      (by unfold Space2.shapePhysical; rw [(lcc _ _ h0).1, (lcc _ _ h1).1]; exact hx)
    rw [(lcc _ _ h0).1, (lcc _ _ h1).1, (lcc _ _ h0).2, (lcc _ _ h1).2] at h
    exact ⟨v, hv, by simpa only [one_mul] using h⟩

-- the hypotheses are met: all the bases exist
example : (∃ b : Base ℝ ℝ ℝ, IsCheb 5 b) ∧ (∃ b : Base ℝ ℝ ℂ, IsCheb 5 b) ∧ (∃ b, IsR2c 8 b) ∧ (∃ b, IsC2c 8 b) :=
  ⟨(isCheb_exists (by norm_num)).imp fun _ h => h.1, (isCheb_exists (by norm_num)).imp fun _ h => h.1,
    (isR2c_exists (by norm_num)).imp fun _ h => h.1, (isC2c_exists (by norm_num)).imp fun _ h => h.1⟩

end Verif.Props
