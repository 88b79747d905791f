/-
Property theorems: rounding errors of the Chebyshev gradient and of the transforms.
-/
import Verif.Proof.RndCheb
import Verif.Props.Rounding
import Verif.Props.Ortho

namespace Verif.Props
open Verif Res Spec Finset

variable {R : Rounding}

/-- C75: the `d`-th derivative of coefficients `a` by rounded arithmetic differs from that by exact arithmetic by at most
`γ_{d (n/2+6)}` times the `d`-th derivative of the coefficients `|a|`, entry by entry, for every `n ≥ 3`, `d` and `a`. -/
theorem C75_gradient {n : ℕ} (hn : 3 ≤ n) (d : ℕ) (h1 : R.u < 1) (hu : ((d * (n / 2 + 6) : ℕ) : ℝ) * R.u < 1) (b : Cheb)
    (hb : Cheb.new n = ok b) (a out : List (Rnd R)) (outR : List ℝ) (ha : a.length = b.lenSpec)
    (ho : out.length = b.lenOrth) (hoR : outR.length = b.lenOrth) :
    ∃ x y z, b.gradientSlice (Rnd R) a out d = ok x ∧ b.gradientSlice ℝ (vals a) outR d = ok y ∧
      b.gradientSlice ℝ ((vals a).map (|·|)) outR d = ok z ∧ x.length = n ∧ y.length = n ∧ z.length = n ∧
      ∀ i < n, |nth (vals x) i - nth y i| ≤ R.γ (d * (n / 2 + 6)) * nth z i := by
  obtain ⟨rfl, -⟩ := cheb_of_new hb
  change a.length = n at ha
  change out.length = n at ho
  change outR.length = n at hoR
  obtain ⟨x, y, z, e1, e2, e3, l1, l2, l3, h, -⟩ := gradient_near (R := R) (p := 0) hn d (by simpa using hu) h1 a (vals a)
    ((vals a).map (|·|)) ha (by rw [vals_length, ha]) (by rw [List.length_map, vals_length, ha])
    (fun i hi => by
      rw [nth_map _ _ _ (by rw [vals_length, ha]; exact hi)]
      exact NearV.self _)
  refine ⟨x, y, z, by rw [Cheb.gradient_eq _ _ ha ho]; exact e1,
    by rw [Cheb.gradient_eq _ _ (by rw [vals_length, ha]) hoR]; exact e2,
    by rw [Cheb.gradient_eq _ _ (by rw [List.length_map, vals_length, ha]) hoR]; exact e3, l1, l2, l3, fun i hi => ?_⟩
  · have := (h i hi).err
    rwa [Nat.zero_add] at this

/-- C75 (uniform bound): the error is at most `γ_{d (n/2+6)} (n²/2)^d` times the largest coefficient. -/
theorem C75_gradient_uniform {n : ℕ} (hn : 3 ≤ n) (d : ℕ) (h1 : R.u < 1) (hu : ((d * (n / 2 + 6) : ℕ) : ℝ) * R.u < 1)
    (b : Cheb) (hb : Cheb.new n = ok b) (a out : List (Rnd R)) (outR : List ℝ) (ha : a.length = b.lenSpec)
    (ho : out.length = b.lenOrth) (hoR : outR.length = b.lenOrth) :
    ∃ x y, b.gradientSlice (Rnd R) a out d = ok x ∧ b.gradientSlice ℝ (vals a) outR d = ok y ∧
      ∀ X, Bounded X (vals a) → Within (R.γ (d * (n / 2 + 6)) * (((n:ℝ) ^ 2 / 2) ^ d * X)) (vals x) y := by
  obtain ⟨rfl, -⟩ := cheb_of_new hb
  change a.length = n at ha
  change out.length = n at ho
  change outR.length = n at hoR
  obtain ⟨x, y, z, e1, e2, e3, l1, l2, l3, h, hz⟩ := gradient_near (R := R) (p := 0) hn d (by simpa using hu) h1 a (vals a)
    ((vals a).map (|·|)) ha (by rw [vals_length, ha]) (by rw [List.length_map, vals_length, ha])
    (fun i hi => by
      rw [nth_map _ _ _ (by rw [vals_length, ha]; exact hi)]
      exact NearV.self _)
  refine ⟨x, y, by rw [Cheb.gradient_eq _ _ ha ho]; exact e1,
    by rw [Cheb.gradient_eq _ _ (by rw [vals_length, ha]) hoR]; exact e2,
    fun X bX => ⟨by rw [vals_length, l1, l2], fun i hi => ?_⟩⟩
  · rw [vals_length, l1] at hi
    have := (h i hi).err
    rw [Nat.zero_add] at this
    refine this.trans (mul_le_mul_of_nonneg_left (hz X (fun i hi => ?_) i hi) (R.γ_nonneg hu))
    rw [nth_map _ _ _ (by rw [vals_length, ha]; exact hi)]
    exact bounded_iff.mp bX i (by rw [vals_length, ha]; exact hi)

/-- `to_ortho` of the Dirichlet and the Neumann basis, with a majorant. -/
theorem to_ortho_near (hR : R.Nearest) (h5 : ((5:ℕ):ℝ) * R.u < 1) (k : CKind) (hk : k = .dirichlet ∨ k = .neumann) {n : ℕ}
    (hn : 5 ≤ n) (b : Compo (Rnd R)) (hb : Compo.new k n = ok b) (bR : Compo ℝ) (hbR : Compo.new k n = ok bR)
    (v : List (Rnd R)) (hv : v.length = b.lenSpec) :
    b.ortho = ⟨n, n⟩ ∧ bR.ortho = ⟨n, n⟩ ∧ v.length = n - 2 ∧
    ∀ (out : List (Rnd R)) (outR : List ℝ), out.length = n → outR.length = n →
    ∃ x y z, b.toOrthoSlice v out = ok x ∧ bR.toOrthoSlice (vals v) outR = ok y ∧ x.length = n ∧ y.length = n ∧
      z.length = n ∧ (∀ i < n, NearV R 5 (nth (vals x) i) (nth y i) (nth z i)) ∧
      ∀ V, Bounded V (vals v) → ∀ i < n, nth z i ≤ 2 * V := by
  have h0 := R.u_nonneg
  have h5' : 5 * R.u < 1 := by simpa using h5
  have key : ∀ {κ : ℕ} (_ : κ ≤ 3) {s : Stencil2 (Rnd R)} {l : ℕ → Rnd R} {a : ℕ → ℝ}
      (_ : s.Form (n - 2) (fun _ => 1) l) (_ : ∀ i, 0 ≤ a i) (_ : ∀ i, a i ≤ 1)
      (_ : ∀ i < n - 2, ∃ θ, Fac R.u κ θ ∧ (l i).val = -(a i) * θ) {sR : Stencil2 ℝ} {lR : ℕ → ℝ}
      (_ : sR.Form (n - 2) (fun _ => 1) lR) (_ : ∀ i < n - 2, lR i = -a i) (_ : v.length = n - 2)
      (out : List (Rnd R)) (outR : List ℝ), out.length = n → outR.length = n →
      ∃ x y z, s.dot v out = ok x ∧ sR.dot (vals v) outR = ok y ∧ x.length = n ∧ y.length = n ∧
      z.length = n ∧ (∀ i < n, NearV R 5 (nth (vals x) i) (nth y i) (nth z i)) ∧
      ∀ V, Bounded V (vals v) → ∀ i < n, nth z i ≤ 2 * V := by
    intro κ hκ s l a hf a0 a1 low sR lR hsR hlR hv out outR ho hoR
    have hk2 : ((κ + 2 : ℕ) : ℝ) * R.u < 1 :=
      lt_of_le_of_lt (mul_le_mul_of_nonneg_right (by exact_mod_cast (by omega)) h0) h5
    obtain ⟨x, ex, hx, h⟩ := stencil_dot_err hf low hk2 (by omega) v out hv (by omega)
    obtain ⟨y, ey, hy, h'⟩ := exact_dot hsR hlR (by omega) (vals v) outR (by rw [vals_length]; exact hv) (by omega)
    refine ⟨x, y, (List.range n).map fun i => |nth (vals v) i| + |lowAt (fun j => a j * nth (vals v) j) i|, ex, ey,
      by omega, by omega, by simp, fun i hi => ?_, fun V bV i hi => ?_⟩
    · have e : ∀ {f : ℕ → ℝ}, nth ((List.range n).map f) i = f i := nth_map_range _ _ _ hi
      rw [e, h' i (by omega)]
      refine ⟨abs_sub _ _, (h i (by omega)).trans (mul_le_mul_of_nonneg_right (R.γ_mono (by omega) h5) (by positivity))⟩
    · have e : ∀ {f : ℕ → ℝ}, nth ((List.range n).map f) i = f i := nth_map_range _ _ _ hi
      rw [e]
      have hV : 0 ≤ V := (abs_nonneg _).trans (bounded_iff.mp bV 0 (by rw [vals_length]; omega))
      have lowV : |lowAt (fun j => a j * nth (vals v) j) i| ≤ V := by
        unfold lowAt
        split
        · rw [abs_mul, abs_of_nonneg (a0 _)]
          have := mul_le_mul (a1 (i - 2)) (bV.nth hV (i - 2)) (abs_nonneg _) zero_le_one
          linarith
        · rw [abs_zero]; exact hV
      linarith [bV.nth hV i]
  rcases hk with rfl | rfl
  · obtain ⟨_, hm, hor, s, hst, hs⟩ := Compo.dirichlet_form (by omega) hb
    obtain ⟨_, hmR, horR, sR, hstR, hsR⟩ := Compo.dirichlet_form (by omega) hbR
    refine ⟨hor, horR, hv.trans hm, fun out outR ho hoR => ?_⟩
    unfold Compo.toOrthoSlice
    rw [hst, hstR]
    exact key (κ := 0) (by omega) (a := fun _ => 1) hs (fun _ => zero_le_one) (fun _ => le_rfl)
      (fun i _ => ⟨1, Fac.one, by simp⟩) hsR (fun _ _ => rfl) (hv.trans hm) out outR ho hoR
  · obtain ⟨_, hm, hor, s, l, hst, hs, hl⟩ := Compo.neumann_form (by omega) hb
    obtain ⟨_, hmR, horR, _⟩ := Compo.neumann_form (by omega) hbR
    obtain ⟨_, sR, lR, hstR, hsR, hlR⟩ := exact_neumann hn hbR
    refine ⟨hor, horR, hv.trans hm, fun out outR ho hoR => ?_⟩
    unfold Compo.toOrthoSlice
    rw [hst, hstR]
    exact key (κ := 3) (by omega) hs neuA_nonneg neuA_le
      (fun i hi => by obtain ⟨θ, f, e, _⟩ := neumann_low hR (by linarith) hl i hi; exact ⟨θ, f, e⟩)
      hsR hlR (hv.trans hm) out outR ho hoR

/-- C75 (Dirichlet and Neumann): the gradient of coefficients `v` of a composite basis by rounded arithmetic differs from
that by exact arithmetic by at most `2 γ_{5 + d (n/2+6)} (n²/2)^d` times the largest coefficient. -/
theorem C75_composite_gradient (hR : R.Nearest) (k : CKind) (hk : k = .dirichlet ∨ k = .neumann) {n : ℕ} (hn : 5 ≤ n) (d : ℕ)
    (hu : ((5 + d * (n / 2 + 6) : ℕ) : ℝ) * R.u < 1) (b : Compo (Rnd R)) (hb : Compo.new k n = ok b) (bR : Compo ℝ)
    (hbR : Compo.new k n = ok bR) (v out : List (Rnd R)) (outR : List ℝ) (hv : v.length = b.lenSpec)
    (ho : out.length = b.lenOrth) (hoR : outR.length = bR.lenOrth) :
    ∃ x y, b.gradientSlice v out d = ok x ∧ bR.gradientSlice (vals v) outR d = ok y ∧
      ∀ V, Bounded V (vals v) → Within (R.γ (5 + d * (n / 2 + 6)) * (((n:ℝ) ^ 2 / 2) ^ d * (2 * V))) (vals x) y := by
  obtain ⟨hor, horR, hm, h⟩ := to_ortho_near hR (lt_of_le_of_lt (mul_le_mul_of_nonneg_right
    (by exact_mod_cast (Nat.le_add_right 5 _)) R.u_nonneg) hu) k hk hn b hb bR hbR v hv
  have e1 : b.lenOrth = n := by unfold Compo.lenOrth; rw [hor]; rfl
  have e2 : bR.lenOrth = n := by unfold Compo.lenOrth; rw [horR]; rfl
  obtain ⟨w, wR, wZ, f1, f2, l1, l2, l3, hN, hZ⟩ := h (List.replicate b.lenOrth 0) (List.replicate bR.lenOrth 0)
    (by simpa using e1) (by simpa using e2)
  have h1 : R.u < 1 := by
    refine lt_of_le_of_lt ?_ hu
    have := mul_le_mul_of_nonneg_right (show (1:ℝ) ≤ ((5 + d * (n / 2 + 6) : ℕ) : ℝ) by exact_mod_cast (by omega)) R.u_nonneg
    linarith
  obtain ⟨x, y, z, g1, g2, g3, m1, m2, m3, hx, hz⟩ := gradient_near (R := R) (p := 5) (by omega) d hu h1 w wR wZ l1 l2 l3 hN
  refine ⟨x, y, ?_, ?_, fun V bV => ⟨by rw [vals_length, m1, m2], fun i hi => ?_⟩⟩
  · unfold Compo.gradientSlice
    dsimp only
    rw [f1, bind_ok, hor, Cheb.gradient_eq _ _ l1 (ho.trans e1)]; exact g1
  · unfold Compo.gradientSlice
    dsimp only
    rw [f2, bind_ok, horR, Cheb.gradient_eq _ _ l2 (hoR.trans e2)]; exact g2
  · rw [vals_length, m1] at hi
    exact (hx i hi).err.trans (mul_le_mul_of_nonneg_left (hz (2 * V) (fun i hi => hZ V bV i hi) i hi) (R.γ_nonneg hu))

section transforms
variable [HasDct (Rnd R)]

/-- C76 (forward): if the cosine transform has the relative error `η`, then `forward` of the Chebyshev basis has the relative
error `(1 + η)(1 + γ₈) - 1`, measured by the mean modulus of the values, for all values and every `n`. -/
theorem C76_forward {n : ℕ} {η : ℝ} (h0 : 0 ≤ η) (hu : 8 * R.u < 1) (hD : DctError R n η) (b : Cheb) (hb : Cheb.new n = ok b)
    (v out : List (Rnd R)) (outR : List ℝ) (hv : v.length = b.lenPhys) (ho : out.length = b.lenSpec)
    (hoR : outR.length = b.lenSpec) :
    ∃ x y, b.forwardSlice v out = ok x ∧ b.forwardSlice (vals v) outR = ok y ∧
      Within (((1 + η) * (1 + R.γ 8) - 1) * (2 / ((n:ℝ) - 1) * absSum (vals v))) (vals x) y ∧
      Bounded (2 / ((n:ℝ) - 1) * absSum (vals v)) y := by
  obtain ⟨rfl, hn⟩ := cheb_of_new hb
  change v.length = n at hv
  change out.length = n at ho
  change outR.length = n at hoR
  have hu0 := R.u_nonneg
  have h1 : R.u < 1 := by linarith
  have hn1 : (0:ℝ) < (n:ℝ) - 1 := by
    have : (2:ℝ) ≤ n := by exact_mod_cast hn
    linarith
  have hcast : ((n - 1 : ℕ) : ℝ) = (n:ℝ) - 1 := by rw [Nat.cast_sub (by omega)]; simp
  -- the factor
  obtain ⟨t1, f1, q1⟩ := R.fl_fac h1 2
  obtain ⟨t2, f2, q2⟩ := R.fl_fac h1 (R.fl 2)
  obtain ⟨t3, f3, q3⟩ := R.fl_fac h1 ((n - 1 : ℕ) : ℝ)
  obtain ⟨t4, f4, q4⟩ := R.fl_fac h1 (R.fl (R.fl 2) / R.fl ((n - 1 : ℕ) : ℝ))
  have hc : divR ((1 + 1) * (1 : Rnd R)) ((n - 1 : ℕ) : Rnd R) = ok ⟨R.fl (R.fl (R.fl 2) / R.fl ((n - 1 : ℕ) : ℝ))⟩ := by
    rw [Rnd.div_ok (by rw [Rnd.val_cast]; exact R.fl_ne_zero h1 (by rw [hcast]; exact hn1.ne'))]
    congr 3
    rw [Rnd.val_mul, Rnd.val_add, Rnd.val_one, mul_one, show (1:ℝ) + 1 = 2 by norm_num, Rnd.val_cast]
  have hcR : divR ((1 + 1) * (1 : ℝ)) ((n - 1 : ℕ) : ℝ) = ok (2 / ((n:ℝ) - 1)) := by
    rw [divR_eq, if_neg (by rw [hcast]; exact hn1.ne'), hcast, smul_eq_mul]
    congr 1
    field_simp; norm_num
  set cor : Rnd R := ⟨R.fl (R.fl (R.fl 2) / R.fl ((n - 1 : ℕ) : ℝ))⟩ with hcor
  have ecor : cor.val = 2 / ((n:ℝ) - 1) * (t1 * t2 * t3⁻¹ * t4) := by
    show R.fl (R.fl (R.fl 2) / R.fl ((n - 1 : ℕ) : ℝ)) = _
    rw [q4, q3, q2, q1, hcast]
    have := (f3.pos h1).ne'
    field_simp
  clear_value cor
  -- the scaled values
  obtain ⟨hdl, hde⟩ := dct_err (p := 5) hn hD h0 (by push_cast; linarith) (x := v.reverse.map fun y => y * cor)
    (y := (vals v).reverse.map fun y => y * (2 / ((n:ℝ) - 1))) (by simpa using hv)
    (by rw [List.length_map, List.length_reverse, vals_length, hv]) (fun i hi => by
      obtain ⟨t5, f5, q5⟩ := R.fl_fac h1 ((nth v.reverse i).val * cor.val)
      refine ⟨t1 * t2 * t3⁻¹ * t4 * t5, (((f1.mul h1 f2).mul h1 (f3.inv h1)).mul h1 f4).mul h1 f5, ?_⟩
      rw [Rnd.nth_vals, nth_map _ _ _ (by simpa [hv] using hi), Rnd.val_mul, q5, ecor,
        nth_map _ _ _ (by rw [List.length_reverse, vals_length, hv]; exact hi)]
      have : (vals v).reverse = vals v.reverse := by unfold vals; rw [List.map_reverse]
      rw [this, Rnd.nth_vals]
      ring)
  have hS : absSum ((vals v).reverse.map fun y => y * (2 / ((n:ℝ) - 1))) = 2 / ((n:ℝ) - 1) * absSum (vals v) := by
    rw [← absSum_reverse (vals v)]
    unfold absSum
    rw [List.map_map, ← List.sum_map_mul_left]
    congr 1
    refine List.map_congr_left fun y _ => ?_
    rw [Function.comp, abs_mul, abs_of_pos (by positivity : 0 < 2 / ((n:ℝ) - 1)), mul_comm]
  rw [hS] at hde
  have hylen : ((vals v).reverse.map fun y => y * (2 / ((n:ℝ) - 1))).length = n := by
    rw [List.length_map, List.length_reverse, vals_length, hv]
  have hle := fun k (hk : k < n) => dct1_le hn hylen hk
  rw [hS] at hle
  have eR := Cheb.forward_eq hn hcR (vals v) outR (by rw [vals_length, hv]) hoR (by rw [dct_real, dct1_length]; exact hylen)
  rw [dct_real] at eR
  set S := 2 / ((n:ℝ) - 1) * absSum (vals v) with hSdef
  have hS0 : 0 ≤ S := by have := absSum_nonneg (vals v); positivity
  generalize dct1 ((vals v).reverse.map fun y => y * (2 / ((n:ℝ) - 1))) = W at hde hle eR
  refine ⟨_, _, Cheb.forward_eq hn hc v out hv ho hdl, eR, ⟨by simp [vals], fun i hi => ?_⟩, ?_⟩
  · rw [vals_length, List.length_map, List.length_range] at hi
    have e1 : ∀ {f : ℕ → ℝ}, nth ((List.range n).map f) i = f i := nth_map_range _ _ _ hi
    have e2 : ∀ {f : ℕ → Rnd R}, nth ((List.range n).map f) i = f i := nth_map_range _ _ _ hi
    rw [Rnd.nth_vals, e1, e2]
    have g5 := R.γ_nonneg (k := 5) (by push_cast; linarith)
    have g3 := R.γ_nonneg (k := 3) (by push_cast; linarith)
    have g8 := R.γ_nonneg (k := 8) (by push_cast; linarith)
    have ga := R.γ_add (j := 5) (k := 3) (by push_cast; linarith)
    have d := hde i hi
    rw [Rnd.nth_vals] at d
    set w := (nth (HasDct.dct (v.reverse.map fun y => y * cor)) i) with hw
    clear_value w
    have l := hle i hi
    have base : (1 + η) * (1 + R.γ 5) - 1 ≤ (1 + η) * (1 + R.γ 8) - 1 := by
      have := mul_nonneg g5 g3
      have := mul_le_mul_of_nonneg_left (show 1 + R.γ 5 ≤ 1 + R.γ 8 by linarith) (show 0 ≤ 1 + η by linarith)
      linarith
    by_cases hk : i = 0 ∨ i = n - 1
    · rw [if_pos hk, if_pos hk]
      obtain ⟨s1, r1, z1⟩ := R.fl_fac h1 2
      obtain ⟨s2, r2, z2⟩ := R.fl_fac h1 (1 / R.fl 2)
      obtain ⟨s3, r3, z3⟩ := R.fl_fac h1 (w.val * R.fl (1 / R.fl 2))
      have p1 := (r1.pos h1).ne'
      have hf : Fac R.u 3 (s1⁻¹ * s2 * s3) := ((r1.inv h1).mul h1 r2).mul h1 r3
      have hv' : (w * (1 / 2) : Rnd R).val = w.val * (1 / 2) * (s1⁻¹ * s2 * s3) := by
        rw [Rnd.val_mul, Rnd.val_div, val_two, Rnd.val_one, z3, z2, z1]
        field_simp
      rw [hv']
      have hd3 := R.fac_dist hf (by push_cast; linarith)
      generalize s1⁻¹ * s2 * s3 = θ at hd3
      have t : |w.val * (1 / 2) * θ - nth W i * (1 / 2)|
          ≤ (1 / 2) * ((|w.val - nth W i|) * (1 + R.γ 3) + R.γ 3 * |nth W i|) := by
        rw [show w.val * (1 / 2) * θ - nth W i * (1 / 2)
          = (1 / 2) * ((w.val - nth W i) * θ + (θ - 1) * nth W i) by ring, abs_mul, abs_of_pos (by norm_num : (0:ℝ) < 1 / 2)]
        refine mul_le_mul_of_nonneg_left ((abs_add_le _ _).trans ?_) (by norm_num)
        rw [abs_mul, abs_mul]
        refine add_le_add (mul_le_mul_of_nonneg_left ?_ (abs_nonneg _)) (mul_le_mul_of_nonneg_right hd3 (abs_nonneg _))
        have := abs_add_le (θ - 1) 1
        rw [sub_add_cancel, abs_one] at this
        linarith
      refine t.trans ?_
      have u1 := mul_le_mul_of_nonneg_right d (show 0 ≤ 1 + R.γ 3 by linarith)
      have u2 := mul_le_mul_of_nonneg_left l g3
      have u3 : ((1 + η) * (1 + R.γ 5) - 1) * (1 + R.γ 3) + R.γ 3 ≤ (1 + η) * (1 + R.γ 8) - 1 := by
        have := mul_le_mul_of_nonneg_left (show (1 + R.γ 5) * (1 + R.γ 3) ≤ 1 + R.γ 8 by linarith) (show 0 ≤ 1 + η by linarith)
        linarith
      have u4 := mul_le_mul_of_nonneg_right u3 hS0
      have u5 : 0 ≤ ((1 + η) * (1 + R.γ 8) - 1) * S := mul_nonneg (by nlinarith) hS0
      nlinarith
    · rw [if_neg hk, if_neg hk]
      exact d.trans (mul_le_mul_of_nonneg_right base hS0)
  · refine bounded_iff.mpr fun i hi => ?_
    rw [List.length_map, List.length_range] at hi
    have e1 : ∀ {f : ℕ → ℝ}, nth ((List.range n).map f) i = f i := nth_map_range _ _ _ hi
    rw [e1]
    have l := hle i hi
    split
    · rw [abs_mul, abs_of_pos (by norm_num : (0:ℝ) < 1 / 2)]
      linarith [abs_nonneg (nth W i)]
    · exact l

/-- C76 (backward): the same for `backward`: the relative error is `(1 + η)(1 + γ₃) - 1`, measured by twice the sum of the
moduli of the coefficients. -/
theorem C76_backward {n : ℕ} {η : ℝ} (h0 : 0 ≤ η) (hu : 3 * R.u < 1) (hD : DctError R n η) (b : Cheb) (hb : Cheb.new n = ok b)
    (a out : List (Rnd R)) (outR : List ℝ) (ha : a.length = b.lenSpec) (ho : out.length = b.lenPhys)
    (hoR : outR.length = b.lenPhys) :
    ∃ x y, b.backwardSlice a out = ok x ∧ b.backwardSlice (vals a) outR = ok y ∧
      Within (((1 + η) * (1 + R.γ 3) - 1) * (2 * absSum (vals a))) (vals x) y := by
  obtain ⟨rfl, hn⟩ := cheb_of_new hb
  change a.length = n at ha
  change out.length = n at ho
  change outR.length = n at hoR
  have hu0 := R.u_nonneg
  have h1 : R.u < 1 := by linarith
  have g3 := R.γ_nonneg (k := 3) (by push_cast; linarith)
  have hyl : ((List.range n).map fun i =>
      if i = 0 ∨ i = n - 1 then (if i % 2 = 0 then nth (vals a) i else nth (vals a) i * -1) * 2
      else if i % 2 = 0 then nth (vals a) i else nth (vals a) i * -1).length = n := by simp
  obtain ⟨hdl, hde⟩ := dct_err (p := 3) hn hD h0 (by push_cast; linarith)
    (x := (List.range n).map fun i =>
      if i = 0 ∨ i = n - 1 then (if i % 2 = 0 then nth a i else nth a i * -1) * 2
      else if i % 2 = 0 then nth a i else nth a i * -1) (y := (List.range n).map fun i =>
      if i = 0 ∨ i = n - 1 then (if i % 2 = 0 then nth (vals a) i else nth (vals a) i * -1) * 2
      else if i % 2 = 0 then nth (vals a) i else nth (vals a) i * -1) (by simp) hyl (fun i hi => by
      have e1 : ∀ {f : ℕ → ℝ}, nth ((List.range n).map f) i = f i := nth_map_range _ _ _ hi
      have e2 : ∀ {f : ℕ → Rnd R}, nth ((List.range n).map f) i = f i := nth_map_range _ _ _ hi
      rw [Rnd.nth_vals, e1, e2]
      have in1 : ∃ θ, Fac R.u 1 θ ∧ (if i % 2 = 0 then nth a i else nth a i * -1).val
          = (if i % 2 = 0 then nth (vals a) i else nth (vals a) i * -1) * θ := by
        split
        · exact ⟨1, Fac.one.mono hu0 h1 (by omega), by rw [Rnd.nth_vals, mul_one]⟩
        · obtain ⟨t, f, e⟩ := R.fl_fac h1 ((nth a i).val * -1)
          exact ⟨t, f, by rw [Rnd.val_mul, Rnd.val_neg, Rnd.val_one, e, Rnd.nth_vals]⟩
      obtain ⟨θ, f, e⟩ := in1
      by_cases hk : i = 0 ∨ i = n - 1
      · rw [if_pos hk, if_pos hk]
        obtain ⟨t1, f1, q1⟩ := R.fl_fac h1 2
        obtain ⟨t2, f2, q2⟩ := R.fl_fac h1 ((if i % 2 = 0 then nth a i else nth a i * -1).val * R.fl 2)
        refine ⟨θ * t1 * t2, (f.mul h1 f1).mul h1 f2, ?_⟩
        rw [Rnd.val_mul, val_two, q2, q1, e]; ring
      · rw [if_neg hk, if_neg hk]
        exact ⟨θ, f.mono hu0 h1 (by omega), e⟩)
  refine ⟨_, _, Cheb.backward_eq hn a out ha ho, Cheb.backward_eq hn (vals a) outR (by rw [vals_length, ha]) hoR,
    by rw [vals_length, hdl, dct_real, dct1_length, hyl], fun i hi => ?_⟩
  rw [vals_length, hdl] at hi
  rw [dct_real]
  refine (hde i hi).trans (mul_le_mul_of_nonneg_left ?_ (by nlinarith))
  rw [absSum_eq, absSum_eq, hyl, vals_length, ha, Finset.mul_sum]
  refine Finset.sum_le_sum fun j hj => ?_
  have hj' := Finset.mem_range.mp hj
  have e1 : ∀ {f : ℕ → ℝ}, nth ((List.range n).map f) j = f j := nth_map_range _ _ _ hj'
  rw [e1]
  have in1 : |if j % 2 = 0 then nth (vals a) j else nth (vals a) j * -1| = |nth (vals a) j| := by
    split
    · rfl
    · rw [mul_neg, mul_one, abs_neg]
  split
  · rw [abs_mul, in1, abs_two, mul_comm]
  · rw [in1]; linarith [abs_nonneg (nth (vals a) j)]

theorem sum_within {n : ℕ} {ε : ℝ} {x y : List ℝ} (h : Within ε x y) (hx : x.length = n) :
    ∑ i ∈ range n, |nth x i - nth y i| ≤ n * ε := by
  calc _ ≤ ∑ _i ∈ range n, ε := Finset.sum_le_sum fun i hi => h.2 i (by rw [hx]; exact Finset.mem_range.mp hi)
    _ = _ := by simp

theorem bounded_within {ε S : ℝ} {x y : List ℝ} (h : Within ε x y) (hy : Bounded S y) : Bounded (ε + S) x :=
  bounded_iff.mpr fun i hi => by
    have h1 := h.2 i hi
    have h2 := bounded_iff.mp hy i (by rw [← h.1]; exact hi)
    have := abs_add_le (nth x i - nth y i) (nth y i)
    rw [sub_add_cancel] at this
    linarith

/-- the error of a transform of inexact data -/
private theorem combine {n S V a3 a8 E d1 d2 d3 σ τ : ℝ} (hn : 2 ≤ n) (hS : S ≤ 4 * V) (hS0 : 0 ≤ S) (h3 : 0 ≤ a3) (h8 : 0 ≤ a8)
    (hE : (1 + a3) * (1 + a8) ≤ 1 + E) (t1 : d1 ≤ a3 * (2 * τ)) (t2 : d2 ≤ 2 * σ)
    (t3 : σ ≤ n * (a8 * S)) (t4 : τ ≤ n * (a8 * S + S)) (tt : d3 ≤ d1 + d2) : d3 ≤ 8 * n * E * V := by
  have p1 := mul_le_mul_of_nonneg_left t4 (show 0 ≤ 2 * a3 by linarith)
  have p2 : d3 ≤ 2 * (n * S) * (a3 * (1 + a8) + a8) := by linarith
  have p3 := mul_le_mul_of_nonneg_left (show a3 * (1 + a8) + a8 ≤ E by linarith) (show 0 ≤ 2 * (n * S) by positivity)
  have hE0 : 0 ≤ E := by nlinarith
  have p4 := mul_le_mul_of_nonneg_left hS (show 0 ≤ 2 * n * E by positivity)
  linarith

/-- C77: `backward(forward(v))` by rounded arithmetic is `v` up to `8 n` times the error of two transforms, for all values. -/
theorem C77_backward_forward {n : ℕ} {η : ℝ} (h0 : 0 ≤ η) (hu : 11 * R.u < 1) (hD : DctError R n η) (b : Cheb)
    (hb : Cheb.new n = ok b) (v w out : List (Rnd R)) (hv : v.length = b.lenPhys) (hw : w.length = b.lenSpec)
    (ho : out.length = b.lenPhys) :
    ∃ x z, b.forwardSlice v w = ok x ∧ b.backwardSlice x out = ok z ∧
      ∀ V, Bounded V (vals v) → Within (8 * n * ((1 + η) ^ 2 * (1 + R.γ 11) - 1) * V) (vals z) (vals v) := by
  have hu0 := R.u_nonneg
  obtain ⟨x, y, ex, ey, hxy, hy⟩ := C76_forward h0 (by linarith) hD b hb v w (vals w) hv hw (by rw [vals_length]; exact hw)
  obtain ⟨y', ey', hback⟩ := C03_backward_forward n b hb (vals v) (vals w) (vals out) (by rw [vals_length]; exact hv)
    (by rw [vals_length]; exact hw) (by rw [vals_length]; exact ho)
  obtain rfl := Res.ok.inj (ey.symm.trans ey')
  obtain ⟨rfl, hn⟩ := cheb_of_new hb
  change v.length = n at hv
  change w.length = n at hw
  change out.length = n at ho
  have hyl : y.length = n := (Cheb.forward_sub hn (by rw [vals_length, hv]) (by rw [vals_length, hv]) (by rw [vals_length, hw])
    (by rw [vals_length, hw]) ey ey).1
  have hxl : x.length = n := by have := hxy.1; rwa [vals_length, hyl] at this
  obtain ⟨z, zR, ez, ezR, hz⟩ := C76_backward h0 (by linarith) hD ⟨n, n⟩ hb x out (vals out) hxl ho (by rw [vals_length]; exact ho)
  obtain ⟨l1, l2, hs⟩ := Cheb.backward_sub hn (by rw [vals_length, hxl]) hyl (by rw [vals_length, ho])
    (by rw [vals_length, ho]) ezR hback
  refine ⟨x, z, ex, ez, fun V bV => ⟨by rw [hz.1, l1, vals_length, hv], fun i hi => ?_⟩⟩
  have hi' : i < n := by rw [hz.1, l1] at hi; exact hi
  have t1 := hz.2 i hi
  have t2 := hs i hi'
  have t3 := sum_within hxy (by rw [vals_length, hxl])
  have t4 := absSum_le (bounded_within hxy hy)
  rw [vals_length, hxl] at t4
  have tt := abs_sub_le (nth (vals z) i) (nth zR i) (nth (vals v) i)
  have hV : 0 ≤ V := (abs_nonneg _).trans (bounded_iff.mp bV 0 (by rw [vals_length]; omega))
  have hn2 : (2:ℝ) ≤ n := by exact_mod_cast hn
  have hS : 2 / ((n:ℝ) - 1) * absSum (vals v) ≤ 4 * V := by
    have := absSum_le bV
    rw [vals_length, hv] at this
    rw [div_mul_eq_mul_div, div_le_iff₀ (by linarith)]
    nlinarith
  have hS0 : 0 ≤ 2 / ((n:ℝ) - 1) * absSum (vals v) :=
    mul_nonneg (div_nonneg (by norm_num) (by linarith)) (absSum_nonneg _)
  generalize 2 / ((n:ℝ) - 1) * absSum (vals v) = S at *
  have g3 := R.γ_nonneg (k := 3) (by push_cast; linarith)
  have g8 := R.γ_nonneg (k := 8) (by push_cast; linarith)
  have ga := R.γ_add (j := 3) (k := 8) (by push_cast; linarith)
  have e3 : 0 ≤ (1 + η) * (1 + R.γ 3) - 1 := by nlinarith
  have e8 : 0 ≤ (1 + η) * (1 + R.γ 8) - 1 := by nlinarith
  have key : ((1 + η) * (1 + R.γ 3)) * ((1 + η) * (1 + R.γ 8)) ≤ (1 + η) ^ 2 * (1 + R.γ (3 + 8)) := by
    have := mul_le_mul_of_nonneg_left (show (1 + R.γ 3) * (1 + R.γ 8) ≤ 1 + R.γ (3 + 8) by linarith) (sq_nonneg (1 + η))
    linarith
  simp only [show 3 + 8 = 11 from rfl] at key
  exact combine hn2 hS hS0 e3 e8 (by linarith) t1 t2 t3 t4 tt
/-- C77: `forward(backward(a))` by rounded arithmetic is `a` up to eight times the sum of the moduli of `a` times the error of
two transforms, for all coefficients. -/
theorem C77_forward_backward {n : ℕ} {η : ℝ} (h0 : 0 ≤ η) (hu : 11 * R.u < 1) (hD : DctError R n η) (b : Cheb)
    (hb : Cheb.new n = ok b) (a w out : List (Rnd R)) (ha : a.length = b.lenSpec) (hw : w.length = b.lenPhys)
    (ho : out.length = b.lenSpec) :
    ∃ x z, b.backwardSlice a w = ok x ∧ b.forwardSlice x out = ok z ∧
      Within (8 * ((1 + η) ^ 2 * (1 + R.γ 11) - 1) * absSum (vals a)) (vals z) (vals a) := by
  have hu0 := R.u_nonneg
  obtain ⟨x, y, ex, ey, hxy⟩ := C76_backward h0 (by linarith) hD b hb a w (vals w) ha hw (by rw [vals_length]; exact hw)
  obtain ⟨y', ey', hfwd⟩ := C03_forward_backward n b hb (vals a) (vals w) (vals out) (by rw [vals_length]; exact ha)
    (by rw [vals_length]; exact hw) (by rw [vals_length]; exact ho)
  obtain rfl := Res.ok.inj (ey.symm.trans ey')
  obtain ⟨rfl, hn⟩ := cheb_of_new hb
  change a.length = n at ha
  change w.length = n at hw
  change out.length = n at ho
  have hz0 : ∀ i, nth (List.replicate n (0:ℝ)) i = 0 := fun i => by
    by_cases hi : i < n
    · rw [nth_eq_getElem _ _ (by simpa using hi)]; simp
    · exact nth_of_le _ _ (by simpa using hi)
  obtain ⟨y0, ey0, hf0⟩ := C03_forward_backward n ⟨n, n⟩ hb (List.replicate n 0) (vals w) (vals out) (by simp [Cheb.lenSpec])
    (by rw [vals_length]; exact hw) (by rw [vals_length]; exact ho)
  have hy : Bounded (2 * absSum (vals a)) y ∧ y.length = n := by
    obtain ⟨l1, l2, hs⟩ := Cheb.backward_sub hn (by rw [vals_length, ha]) (by simp) (by rw [vals_length, hw])
      (by rw [vals_length, hw]) ey ey0
    have e0 : ∀ i < n, nth y0 i = 0 := fun i hi => by
      rw [Cheb.backward_eq hn _ _ (by simp) (by rw [vals_length, hw])] at ey0
      rw [← Res.ok.inj ey0, dct_real, nth_dct1 _ (n - 1) (by omega) (by simp; omega) i (by omega)]
      refine Finset.sum_eq_zero fun j hj => ?_
      have e1 : ∀ {f : ℕ → ℝ}, nth ((List.range n).map f) j = f j :=
        nth_map_range _ _ _ (by have := Finset.mem_range.mp hj; omega)
      rw [e1]
      simp [hz0]
    refine ⟨bounded_iff.mpr fun i hi => ?_, l1⟩
    have := hs i (by omega)
    rw [e0 i (by omega), sub_zero] at this
    rw [absSum_eq, vals_length, ha]
    simpa [hz0] using this
  obtain ⟨hy, hyl⟩ := hy
  have hxl : x.length = n := by have := hxy.1; rwa [vals_length, hyl] at this
  obtain ⟨z, zR, ez, ezR, hz, -⟩ := C76_forward h0 (by linarith) hD ⟨n, n⟩ hb x out (vals out) hxl ho (by rw [vals_length]; exact ho)
  obtain ⟨l1, l2, hs⟩ := Cheb.forward_sub hn (by rw [vals_length, hxl]) hyl (by rw [vals_length, ho])
    (by rw [vals_length, ho]) ezR hfwd
  refine ⟨x, z, ex, ez, ⟨by rw [hz.1, l1, vals_length, ha], fun i hi => ?_⟩⟩
  have hi' : i < n := by rw [hz.1, l1] at hi; exact hi
  have t1 := hz.2 i hi
  have t2 := hs i hi'
  have t3 := sum_within hxy (by rw [vals_length, hxl])
  have t4 := absSum_le (bounded_within hxy hy)
  rw [vals_length, hxl] at t4
  have tt := abs_sub_le (nth (vals z) i) (nth zR i) (nth (vals a) i)
  have hA := absSum_nonneg (vals a)
  have hn2 : (2:ℝ) ≤ n := by exact_mod_cast hn
  generalize absSum (vals a) = A at *
  have g3 := R.γ_nonneg (k := 3) (by push_cast; linarith)
  have g8 := R.γ_nonneg (k := 8) (by push_cast; linarith)
  have ga := R.γ_add (j := 3) (k := 8) (by push_cast; linarith)
  have e3 : 0 ≤ (1 + η) * (1 + R.γ 3) - 1 := by nlinarith
  have e8 : 0 ≤ (1 + η) * (1 + R.γ 8) - 1 := by nlinarith
  have key : ((1 + η) * (1 + R.γ 3)) * ((1 + η) * (1 + R.γ 8)) ≤ (1 + η) ^ 2 * (1 + R.γ (3 + 8)) := by
    have := mul_le_mul_of_nonneg_left (show (1 + R.γ 3) * (1 + R.γ 8) ≤ 1 + R.γ (3 + 8) by linarith) (sq_nonneg (1 + η))
    linarith
  simp only [show 3 + 8 = 11 from rfl] at key
  set a3 := (1 + η) * (1 + R.γ 3) - 1
  set a8 := (1 + η) * (1 + R.γ 8) - 1
  have hE : (1 + a8) * (1 + a3) - 1 ≤ (1 + η) ^ 2 * (1 + R.γ 11) - 1 := by
    show (1 + ((1 + η) * (1 + R.γ 8) - 1)) * (1 + ((1 + η) * (1 + R.γ 3) - 1)) - 1 ≤ _
    linarith
  have hc : 2 / ((n:ℝ) - 1) * n ≤ 4 := by
    rw [div_mul_eq_mul_div, div_le_iff₀ (by linarith)]; linarith
  have hc0 : 0 ≤ 2 / ((n:ℝ) - 1) := div_nonneg (by norm_num) (by linarith)
  generalize 2 / ((n:ℝ) - 1) = c at *
  have q1 : a8 * (c * absSum (vals x)) ≤ a8 * (c * (n * (a3 * (2 * A) + 2 * A))) :=
    mul_le_mul_of_nonneg_left (mul_le_mul_of_nonneg_left t4 hc0) e8
  have q2 : c * ∑ i ∈ range n, |nth (vals x) i - nth y i| ≤ c * (n * (a3 * (2 * A))) := mul_le_mul_of_nonneg_left t3 hc0
  have q3 : |nth (vals z) i - nth (vals a) i| ≤ (c * n) * (((1 + a8) * (1 + a3) - 1) * (2 * A)) := by linarith
  have hE0 : 0 ≤ ((1 + a8) * (1 + a3) - 1) * (2 * A) := mul_nonneg (by nlinarith) (by linarith)
  have q4 := mul_le_mul_of_nonneg_right hc hE0
  have q5 := mul_le_mul_of_nonneg_right hE (show 0 ≤ 2 * A by linarith)
  linarith

/-- the forward transform of a composite basis -/
private theorem compo_forward {n κ K : ℕ} {η Φ : ℝ} (h0 : 0 ≤ η) (hu : ((κ + 10 : ℕ) : ℝ) * R.u < 1) (hD : DctError R n η)
    (hn : 5 ≤ n) {s : Stencil2 (Rnd R)} {l : ℕ → Rnd R} {a : ℕ → ℝ} (hN : Near2 R s l a (n - 2) κ K Φ)
    {sR : Stencil2 ℝ} {lR : ℕ → ℝ} (hsR : sR.Form (n - 2) (fun _ => 1) lR) (hlR : ∀ i < n - 2, lR i = -a i)
    (hsolve : ∀ c outR : List ℝ, c.length = n → outR.length = n - 2 → ∃ y, sR.solve c outR = ok y)
    (v w out : List (Rnd R)) (wR outR : List ℝ) (hv : v.length = n) (hw : w.length = n) (hwR : wR.length = n)
    (ho : out.length = n - 2) (hoR : outR.length = n - 2) :
    ∃ c x cR y, Cheb.forwardSlice ⟨n, n⟩ v w = ok c ∧ s.solve c out = ok x ∧ Cheb.forwardSlice ⟨n, n⟩ (vals v) wR = ok cR ∧
      sR.solve cR outR = ok y ∧
      (∀ X V, Bounded X (vals x) → Bounded V (vals v) →
        Within (Φ * (6 * R.γ K * X + 8 * ((1 + η) * (1 + R.γ (κ + 10)) - 1) * V)) (vals x) y) ∧
      (12 * Φ * R.γ K ≤ 1 → ∀ Y V, Bounded Y y → Bounded V (vals v) →
        Within (2 * (Φ * (6 * R.γ K * Y + 8 * ((1 + η) * (1 + R.γ (κ + 10)) - 1) * V))) (vals x) y) := by
  have hu0 := R.u_nonneg
  have lt : ∀ {j : ℕ}, j ≤ κ + 10 → (j:ℝ) * R.u < 1 := fun hj =>
    lt_of_le_of_lt (mul_le_mul_of_nonneg_right (by exact_mod_cast hj) hu0) hu
  have hb : Cheb.new n = ok ⟨n, n⟩ := cheb_new_ok (by omega)
  obtain ⟨c, cR, ec, ecR, hcc, hcb⟩ := C76_forward h0 (by have := lt (j := 8) (by omega); simpa using this) hD ⟨n, n⟩ hb v w wR hv hw hwR
  have hcRl : cR.length = n := (Cheb.forward_sub (by omega) (by rw [vals_length, hv]) (by rw [vals_length, hv]) hwR hwR ecR ecR).1
  have hcl : c.length = n := by have := hcc.1; rwa [vals_length, hcRl] at this
  obtain ⟨y, ey⟩ := hsolve cR outR hcRl hoR
  obtain ⟨x, ex, hxl, hyl, p1, p2⟩ := hN.from_near (by omega) hsR hlR (u := c) (c := cR) (out := out) (outR := outR)
    (by omega) (by omega) ho hoR ey
  have hP := hN.Phi (by omega)
  have hn2 : (5:ℝ) ≤ n := by exact_mod_cast hn
  have g2 := R.γ_nonneg (lt (j := κ + 2) (by omega))
  have g8 := R.γ_nonneg (lt (j := 8) (by omega))
  have ga := R.γ_add (j := κ + 2) (k := 8) (lt (by omega))
  have e8 : 0 ≤ (1 + η) * (1 + R.γ 8) - 1 := by nlinarith
  have key : (1 + R.γ (κ + 2)) * ((1 + η) * (1 + R.γ 8)) ≤ (1 + η) * (1 + R.γ (κ + 10)) := by
    have := mul_le_mul_of_nonneg_left (show (1 + R.γ (κ + 2)) * (1 + R.γ 8) ≤ 1 + R.γ (κ + 10) by
      rw [show κ + 10 = κ + 2 + 8 by omega]; linarith) (show 0 ≤ 1 + η by linarith)
    linarith
  have bU := bounded_within hcc hcb
  have bnd : ∀ V, Bounded V (vals v) → 2 * R.γ (κ + 2) * (((1 + η) * (1 + R.γ 8) - 1) * (2 / ((n:ℝ) - 1) * absSum (vals v))
      + 2 / ((n:ℝ) - 1) * absSum (vals v)) + 2 * (((1 + η) * (1 + R.γ 8) - 1) * (2 / ((n:ℝ) - 1) * absSum (vals v)))
      ≤ 8 * ((1 + η) * (1 + R.γ (κ + 10)) - 1) * V := by
    intro V bV
    have hV : 0 ≤ V := (abs_nonneg _).trans (bounded_iff.mp bV 0 (by rw [vals_length]; omega))
    have hS : 2 / ((n:ℝ) - 1) * absSum (vals v) ≤ 4 * V := by
      have := absSum_le bV
      rw [vals_length, hv] at this
      rw [div_mul_eq_mul_div, div_le_iff₀ (by linarith)]
      nlinarith
    have hS0 : 0 ≤ 2 / ((n:ℝ) - 1) * absSum (vals v) :=
      mul_nonneg (div_nonneg (by norm_num) (by linarith)) (absSum_nonneg _)
    generalize 2 / ((n:ℝ) - 1) * absSum (vals v) = S at *
    have q1 := mul_le_mul_of_nonneg_right (show (1 + R.γ (κ + 2)) * ((1 + η) * (1 + R.γ 8)) - 1
      ≤ (1 + η) * (1 + R.γ (κ + 10)) - 1 by linarith) (show 0 ≤ 2 * S by linarith)
    have g10 : 0 ≤ (1 + η) * (1 + R.γ (κ + 10)) - 1 := by
      have := mul_nonneg g2 e8
      nlinarith
    have q2 := mul_le_mul_of_nonneg_left hS (show 0 ≤ 2 * ((1 + η) * (1 + R.γ (κ + 10)) - 1) by linarith)
    linarith
  refine ⟨c, x, cR, y, ec, ex, ecR, ey, fun X V bX bV => ?_, fun hsm Y V bY bV => ?_⟩
  · obtain ⟨q1, q2⟩ := p1 X _ _ bX bU hcc
    refine ⟨q1, fun i hi => (q2 i hi).trans (mul_le_mul_of_nonneg_left ?_ hP)⟩
    have := bnd V bV
    linarith
  · obtain ⟨q1, q2⟩ := p2 hsm Y _ _ bY bU hcc
    refine ⟨q1, fun i hi => (q2 i hi).trans (mul_le_mul_of_nonneg_left (mul_le_mul_of_nonneg_left ?_ hP) (by norm_num))⟩
    have := bnd V bV
    linarith

/-- C78 (Dirichlet, forward): the coefficients of all values `v` by rounded arithmetic against those by exact arithmetic. -/
theorem C78_dirichlet_forward (hR : R.Nearest) {n : ℕ} {η : ℝ} (h0 : 0 ≤ η) (hu : 10 * R.u < 1) (hD : DctError R n η)
    (hn : 5 ≤ n) (b : Compo (Rnd R)) (hb : Compo.new .dirichlet n = ok b) (bR : Compo ℝ) (hbR : Compo.new .dirichlet n = ok bR)
    (v out : List (Rnd R)) (outR : List ℝ) (hv : v.length = b.lenPhys) (ho : out.length = b.lenSpec)
    (hoR : outR.length = bR.lenSpec) :
    ∃ x y, b.forwardSlice v out = ok x ∧ bR.forwardSlice (vals v) outR = ok y ∧
      (∀ X V, Bounded X (vals x) → Bounded V (vals v) →
        Within (((n:ℝ) + 1) ^ 2 / 32 * (6 * R.γ 5 * X + 8 * ((1 + η) * (1 + R.γ 10) - 1) * V)) (vals x) y) ∧
      (3 * ((n:ℝ) + 1) ^ 2 * R.γ 5 ≤ 8 → ∀ Y V, Bounded Y y → Bounded V (vals v) →
        Within (((n:ℝ) + 1) ^ 2 / 16 * (6 * R.γ 5 * Y + 8 * ((1 + η) * (1 + R.γ 10) - 1) * V)) (vals x) y) := by
  obtain ⟨hbn, hm, hor, s, hst, hs⟩ := Compo.dirichlet_form (by omega) hb
  obtain ⟨_, hmR, horR, sR, hstR, hsR⟩ := Compo.dirichlet_form (by omega) hbR
  have e1 : b.lenOrth = n := by unfold Compo.lenOrth; rw [hor]; rfl
  have e2 : bR.lenOrth = n := by unfold Compo.lenOrth; rw [horR]; rfl
  obtain ⟨c, x, cR, y, ec, ex, ecR, ey, p1, p2⟩ := compo_forward (κ := 0) h0 (by push_cast; linarith) hD hn
    (dirichlet_near hR (by linarith [R.u_nonneg]) hn hs) hsR (fun _ _ => rfl) (fun c o hc ho => by
      obtain ⟨y, hy, _⟩ := C19_from_ortho_total .dirichlet n bR hbR hn c o (hc.trans e2.symm) (ho.trans hmR.symm)
      unfold Compo.fromOrthoSlice at hy; rw [hstR] at hy; exact ⟨y, hy⟩)
    v (List.replicate b.lenOrth 0) out (List.replicate bR.lenOrth 0) outR (hv.trans hbn) (by simpa using e1) (by simpa using e2)
    (ho.trans hm) (hoR.trans hmR)
  refine ⟨x, y, ?_, ?_, p1, fun hsm Y V bY bV => ?_⟩
  · unfold Compo.forwardSlice Compo.fromOrthoSlice
    dsimp only
    rw [hor, ec, bind_ok, hst]; exact ex
  · unfold Compo.forwardSlice Compo.fromOrthoSlice
    dsimp only
    rw [horR, ecR, bind_ok, hstR]; exact ey
  · have := p2 (by linarith) Y V bY bV
    rwa [show 2 * (((n:ℝ) + 1) ^ 2 / 32 * (6 * R.γ 5 * Y + 8 * ((1 + η) * (1 + R.γ (0 + 10)) - 1) * V))
      = ((n:ℝ) + 1) ^ 2 / 16 * (6 * R.γ 5 * Y + 8 * ((1 + η) * (1 + R.γ 10) - 1) * V) by ring] at this

/-- C78 (Neumann, forward). -/
theorem C78_neumann_forward (hR : R.Nearest) {n : ℕ} {η : ℝ} (h0 : 0 ≤ η) (h13 : 13 * R.u < 1) (hD : DctError R n η)
    (hn : 5 ≤ n) (h8 : ((n:ℝ) - 1) ^ 2 * R.γ 8 ≤ 1) (b : Compo (Rnd R)) (hb : Compo.new .neumann n = ok b) (bR : Compo ℝ)
    (hbR : Compo.new .neumann n = ok bR) (v out : List (Rnd R)) (outR : List ℝ) (hv : v.length = b.lenPhys)
    (ho : out.length = b.lenSpec) (hoR : outR.length = bR.lenSpec) :
    ∃ x y, b.forwardSlice v out = ok x ∧ bR.forwardSlice (vals v) outR = ok y ∧
      (∀ X V, Bounded X (vals x) → Bounded V (vals v) →
        Within (((n:ℝ) - 1) ^ 2 / 4 * (6 * R.γ 13 * X + 8 * ((1 + η) * (1 + R.γ 13) - 1) * V)) (vals x) y) ∧
      (3 * ((n:ℝ) - 1) ^ 2 * R.γ 13 ≤ 1 → ∀ Y V, Bounded Y y → Bounded V (vals v) →
        Within (((n:ℝ) - 1) ^ 2 / 2 * (6 * R.γ 13 * Y + 8 * ((1 + η) * (1 + R.γ 13) - 1) * V)) (vals x) y) := by
  obtain ⟨hbn, hm, hor, s, l, hst, hs, hl⟩ := Compo.neumann_form (by omega) hb
  obtain ⟨_, hmR, horR, _⟩ := Compo.neumann_form (by omega) hbR
  obtain ⟨_, sR, lR, hstR, hsR, hlR⟩ := exact_neumann hn hbR
  have e1 : b.lenOrth = n := by unfold Compo.lenOrth; rw [hor]; rfl
  have e2 : bR.lenOrth = n := by unfold Compo.lenOrth; rw [horR]; rfl
  obtain ⟨c, x, cR, y, ec, ex, ecR, ey, p1, p2⟩ := compo_forward (κ := 3) h0 (by push_cast; linarith) hD hn
    (neumann_near hR h13 hn h8 hs hl) hsR hlR (fun c o hc ho => by
      obtain ⟨y, hy, _⟩ := C19_from_ortho_total .neumann n bR hbR hn c o (hc.trans e2.symm) (ho.trans hmR.symm)
      unfold Compo.fromOrthoSlice at hy; rw [hstR] at hy; exact ⟨y, hy⟩)
    v (List.replicate b.lenOrth 0) out (List.replicate bR.lenOrth 0) outR (hv.trans hbn) (by simpa using e1) (by simpa using e2)
    (ho.trans hm) (hoR.trans hmR)
  refine ⟨x, y, ?_, ?_, p1, fun hsm Y V bY bV => ?_⟩
  · unfold Compo.forwardSlice Compo.fromOrthoSlice
    dsimp only
    rw [hor, ec, bind_ok, hst]; exact ex
  · unfold Compo.forwardSlice Compo.fromOrthoSlice
    dsimp only
    rw [horR, ecR, bind_ok, hstR]; exact ey
  · have := p2 (by linarith) Y V bY bV
    rwa [show 2 * (((n:ℝ) - 1) ^ 2 / 4 * (6 * R.γ 13 * Y + 8 * ((1 + η) * (1 + R.γ (3 + 10)) - 1) * V))
      = ((n:ℝ) - 1) ^ 2 / 2 * (6 * R.γ 13 * Y + 8 * ((1 + η) * (1 + R.γ 13) - 1) * V) by ring] at this

/-- C78 (backward): the values of the function with coefficients `v` in the Dirichlet or Neumann basis by rounded arithmetic
differ from those by exact arithmetic by at most `4 n` times the largest coefficient times the error of a transform. -/
theorem C78_backward (hR : R.Nearest) (k : CKind) (hk : k = .dirichlet ∨ k = .neumann) {n : ℕ} {η : ℝ} (h0 : 0 ≤ η)
    (hu : 8 * R.u < 1) (hD : DctError R n η) (hn : 5 ≤ n) (b : Compo (Rnd R)) (hb : Compo.new k n = ok b) (bR : Compo ℝ)
    (hbR : Compo.new k n = ok bR) (v out : List (Rnd R)) (outR : List ℝ) (hv : v.length = b.lenSpec)
    (ho : out.length = n) (hoR : outR.length = n) :
    ∃ x y, b.backwardSlice v out = ok x ∧ bR.backwardSlice (vals v) outR = ok y ∧
      ∀ V, Bounded V (vals v) → Within (4 * n * ((1 + η) * (1 + R.γ 8) - 1) * V) (vals x) y := by
  have hu0 := R.u_nonneg
  obtain ⟨hor, horR, hm, h⟩ := to_ortho_near hR (by push_cast; linarith) k hk hn b hb bR hbR v hv
  have e1 : b.lenOrth = n := by unfold Compo.lenOrth; rw [hor]; rfl
  have e2 : bR.lenOrth = n := by unfold Compo.lenOrth; rw [horR]; rfl
  obtain ⟨w, wR, wZ, f1, f2, l1, l2, l3, hN, hZ⟩ := h (List.replicate b.lenOrth 0) (List.replicate bR.lenOrth 0)
    (by simpa using e1) (by simpa using e2)
  have hc : Cheb.new n = ok ⟨n, n⟩ := cheb_new_ok (by omega)
  obtain ⟨x, xR, ex, exR, hx⟩ := C76_backward h0 (by linarith) hD ⟨n, n⟩ hc w out outR l1 ho hoR
  obtain ⟨y, ey, -⟩ := C03_forward_backward n ⟨n, n⟩ hc wR outR wR l2 hoR l2
  obtain ⟨m1, m2, hs⟩ := Cheb.backward_sub (by omega) (by rw [vals_length, l1]) l2 hoR hoR exR ey
  refine ⟨x, y, ?_, ?_, fun V bV => ⟨by rw [hx.1, m1, m2], fun i hi => ?_⟩⟩
  · unfold Compo.backwardSlice
    dsimp only
    rw [f1, bind_ok, hor]; exact ex
  · unfold Compo.backwardSlice
    dsimp only
    rw [f2, bind_ok, horR]; exact ey
  have hi' : i < n := by rw [hx.1, m1] at hi; exact hi
  have hV : 0 ≤ V := (abs_nonneg _).trans (bounded_iff.mp bV 0 (by rw [vals_length]; omega))
  have g5 := R.γ_nonneg (k := 5) (by push_cast; linarith)
  have g3 := R.γ_nonneg (k := 3) (by push_cast; linarith)
  have ga := R.γ_add (j := 5) (k := 3) (by push_cast; linarith)
  have hW : Within (R.γ 5 * (2 * V)) (vals w) wR := ⟨by rw [vals_length, l1, l2], fun j hj => by
    rw [vals_length, l1] at hj
    exact (hN j hj).err.trans (mul_le_mul_of_nonneg_left (hZ V bV j hj) g5)⟩
  have hWR : Bounded (2 * V) wR := bounded_iff.mpr fun j hj => (hN j (by omega)).le.trans (hZ V bV j (by omega))
  have t1 := hx.2 i hi
  have t2 := hs i hi'
  have t3 := sum_within hW (by rw [vals_length, l1])
  have t4 := absSum_le (bounded_within hW hWR)
  rw [vals_length, l1] at t4
  have tt := abs_sub_le (nth (vals x) i) (nth xR i) (nth y i)
  have e3 : 0 ≤ (1 + η) * (1 + R.γ 3) - 1 := by nlinarith
  have key := mul_le_mul_of_nonneg_left (show (1 + R.γ 5) * (1 + R.γ 3) ≤ 1 + R.γ 8 by linarith) (show 0 ≤ 1 + η by linarith)
  have q1 := mul_le_mul_of_nonneg_left t4 (show 0 ≤ 2 * ((1 + η) * (1 + R.γ 3) - 1) by linarith)
  have q2 := mul_le_mul_of_nonneg_right (show (1 + η) * ((1 + R.γ 5) * (1 + R.γ 3)) - 1 ≤ (1 + η) * (1 + R.γ 8) - 1 by linarith)
    (show 0 ≤ 4 * (n * V) by positivity)
  linarith

end transforms

/-! The hypotheses are met: a cosine transform with correctly rounded results, on numbers with 53 binary digits. -/

/-- the exact transform, rounded -/
noncomputable def roundedDct (R : Rounding) : HasDct (Rnd R) := ⟨fun x => (dct1 (vals x)).map fun y => ⟨R.fl y⟩⟩

attribute [local instance] roundedDct

theorem rounded_error {n : ℕ} (hn : 2 ≤ n) : DctError R n R.u := by
  intro x hx
  have hl : (dct1 (vals x)).length = n := by rw [dct1_length, vals_length, hx]
  refine ⟨by rw [vals_length]; exact List.length_map _, fun i hi => ?_⟩
  have hi' : i < n := by
    rw [vals_length] at hi
    have : (HasDct.dct x).length = (dct1 (vals x)).length := List.length_map _
    omega
  rw [Rnd.nth_vals]
  have e : nth (HasDct.dct x) i = ⟨R.fl (nth (dct1 (vals x)) i)⟩ := nth_map _ _ _ (by omega)
  rw [e]
  exact (R.err _).trans (mul_le_mul_of_nonneg_left (dct1_le hn (by rw [vals_length, hx]) hi') R.u_nonneg)

theorem u52' : (binary 52).u = 1 / 9007199254740992 := by show (2⁻¹ : ℝ) ^ 53 = _; norm_num

theorem gam52' (k : ℕ) : (binary 52).γ k = k * (1 / 9007199254740992) / (1 - k * (1 / 9007199254740992)) := by
  unfold Rounding.γ; rw [u52']

/-- 1000 Chebyshev coefficients of modulus at most 1: the second derivative is exact up to `10⁻¹` (its entries have the
order `10¹¹`), and the values after `forward` and `backward` are exact up to `10⁻¹⁰`. -/
example : ∃ b : Cheb, Cheb.new 1000 = ok b ∧
    (∀ a out : List (Rnd (binary 52)), a.length = b.lenSpec → out.length = b.lenOrth → Bounded 1 (vals a) →
      ∃ x y, b.gradientSlice (Rnd (binary 52)) a out 2 = ok x ∧ b.gradientSlice ℝ (vals a) (vals out) 2 = ok y ∧
        Within (1 / 10 ^ 1) (vals x) y) ∧
    ∀ v w out : List (Rnd (binary 52)), v.length = b.lenPhys → w.length = b.lenSpec → out.length = b.lenPhys →
      Bounded 1 (vals v) → ∃ x z, b.forwardSlice v w = ok x ∧ b.backwardSlice x out = ok z ∧
        Within (1 / 10 ^ 10) (vals z) (vals v) := by
  refine ⟨⟨1000, 1000⟩, cheb_new_ok (by omega), fun a out ha ho bA => ?_, fun v w out hv hw ho bV => ?_⟩
  · obtain ⟨x, y, h1, h2, h3⟩ := C75_gradient_uniform (R := binary 52) (n := 1000) (by omega) 2 (by rw [u52']; norm_num)
      (by rw [u52']; norm_num) _ (cheb_new_ok (by omega)) a out (vals out) ha ho (by rw [vals_length]; exact ho)
    refine ⟨x, y, h1, h2, (h3 1 bA).1, fun i hi => ((h3 1 bA).2 i hi).trans ?_⟩
    rw [gam52']; norm_num
  · obtain ⟨x, z, h1, h2, h3⟩ := C77_backward_forward (R := binary 52) (n := 1000) (η := (binary 52).u) (binary 52).u_nonneg
      (by rw [u52']; norm_num) (rounded_error (by omega)) _ (cheb_new_ok (by omega)) v w out hv hw ho
    refine ⟨x, z, h1, h2, (h3 1 bV).1, fun i hi => ((h3 1 bV).2 i hi).trans ?_⟩
    rw [gam52', u52']; norm_num

/-- 1000 values of modulus at most 1 in the Dirichlet basis: the transforms and the gradient -/
example : ∃ (b : Compo (Rnd (binary 52))) (bR : Compo ℝ), Compo.new .dirichlet 1000 = ok b ∧ Compo.new .dirichlet 1000 = ok bR ∧
    (∀ v out : List (Rnd (binary 52)), v.length = 1000 → out.length = 998 → Bounded 1 (vals v) →
      ∃ x y, b.forwardSlice v out = ok x ∧ bR.forwardSlice (vals v) (vals out) = ok y ∧
        ∀ Y, 1 ≤ Y → Bounded Y y → Within (Y / 10 ^ 8) (vals x) y) ∧
    (∀ v out : List (Rnd (binary 52)), v.length = 998 → out.length = 1000 → Bounded 1 (vals v) →
      (∃ x y, b.backwardSlice v out = ok x ∧ bR.backwardSlice (vals v) (vals out) = ok y ∧ Within (1 / 10 ^ 11) (vals x) y) ∧
      ∃ x y, b.gradientSlice v out 1 = ok x ∧ bR.gradientSlice (vals v) (vals out) 1 = ok y ∧
        Within (1 / 10 ^ 6) (vals x) y) := by
  obtain ⟨b, hb⟩ := C72_new (R := binary 52) (by rw [u52']; norm_num) .dirichlet (.inl rfl) (n := 1000) (by omega)
  obtain ⟨bR, hbR⟩ : ∃ bR : Compo ℝ, Compo.new .dirichlet 1000 = ok bR := by
    obtain ⟨b, hb⟩ := newR2r_exists (some .dirichlet) 1000 (by norm_num) (by rintro c ⟨⟩; decide)
    obtain ⟨c, hc, -⟩ := composite_inv hb
    exact ⟨c, hc⟩
  obtain ⟨hn, hm, hor, _⟩ := Compo.dirichlet_form (by omega) hb
  obtain ⟨_, hmR, horR, _⟩ := Compo.dirichlet_form (by omega) hbR
  have hR := binary_nearest 52
  refine ⟨b, bR, hb, hbR, fun v out hv ho bV => ?_, fun v out hv ho bV => ⟨?_, ?_⟩⟩
  · obtain ⟨x, y, h1, h2, -, h3⟩ := C78_dirichlet_forward hR (η := (binary 52).u) (binary 52).u_nonneg (by rw [u52']; norm_num)
      (rounded_error (by omega)) (by omega) b hb bR hbR v out (vals out) (hv.trans hn.symm) (ho.trans hm.symm)
      (by rw [vals_length]; exact ho.trans hmR.symm)
    refine ⟨x, y, h1, h2, fun Y hY bY => ?_⟩
    obtain ⟨q1, q2⟩ := h3 (by rw [gam52']; norm_num) Y 1 bY bV
    refine ⟨q1, fun i hi => (q2 i hi).trans ?_⟩
    rw [gam52', gam52', u52']; norm_num; linarith
  · obtain ⟨x, y, h1, h2, h3⟩ := C78_backward hR .dirichlet (.inl rfl) (η := (binary 52).u) (binary 52).u_nonneg
      (by rw [u52']; norm_num) (rounded_error (by omega)) (by omega) b hb bR hbR v out (vals out) (hv.trans hm.symm) ho
      (by rw [vals_length]; exact ho)
    refine ⟨x, y, h1, h2, (h3 1 bV).1, fun i hi => ((h3 1 bV).2 i hi).trans ?_⟩
    rw [gam52', u52']; norm_num
  · obtain ⟨x, y, h1, h2, h3⟩ := C75_composite_gradient hR .dirichlet (.inl rfl) (n := 1000) (by omega) 1 (by rw [u52']; norm_num) b hb bR hbR
      v out (vals out) (hv.trans hm.symm) (by unfold Compo.lenOrth; rw [hor]; exact ho)
      (by unfold Compo.lenOrth; rw [horR, vals_length]; exact ho)
    refine ⟨x, y, h1, h2, (h3 1 bV).1, fun i hi => ((h3 1 bV).2 i hi).trans ?_⟩
    rw [gam52']; norm_num

end Verif.Props
