/-
Property theorems: rounding errors of the mixed basis (Dirichlet at one end, Neumann at the other).
-/
import Verif.Proof.RndMixed
import Verif.Proof.RndMixedSolve
import Verif.Props.Solvers
import Verif.Props.RoundingCheb

namespace Verif.Props
open Verif Res Spec Finset

variable {R : Rounding}

/-- C94: the mixed basis of every size `n ≥ 4` can be constructed in arithmetic with rounding. -/
theorem C94_new (hu : R.u < 1) {n : ℕ} (hn : 4 ≤ n) : ∃ b : Compo (Rnd R), Compo.new .dirichletNeumann n = ok b := by
  have : wp (fun _ => False) (Compo.new (K := Rnd R) .dirichletNeumann n) (fun _ => True) := by
    have ne : ∀ k : ℕ, (((k : Rnd R) + 1) ^ 2 + ((k : Rnd R) + 2) ^ 2).val ≠ 0 := fun k =>
      (mixed_parts hu k).2.2.2.ne_zero hu (by positivity)
    unfold Compo.new dirichletNeumannNew
    wprun
    refine wp_forRange (fun i (v : List (Rnd R) × List (Rnd R)) => v.1.length = n - 2 ∧ v.2.length = n - 2)
      ⟨by simp, by simp⟩ ?_ ?_
    · rintro i ⟨v1, v2⟩ - hi ⟨hv1, hv2⟩
      dsimp only at hv1 hv2 ⊢
      wprun
      refine wp_divE ⟨_, Rnd.div_ok (ne i)⟩ fun y _ => ?_
      wprun
      refine wp_divE ⟨_, Rnd.div_ok (ne i)⟩ fun y _ => ?_
      wprun
      exact ⟨by simpa using hv1, by simpa using hv2⟩
    rintro ⟨v1, v2⟩ ⟨hv1, hv2⟩
    dsimp only at hv1 hv2 ⊢
    rw [replicate_eq_map, show v1 = (List.range (n - 2)).map (nth v1) from
      ext_nth (by simpa using hv1) fun i hi => (nth_map_range _ _ _ (by omega)).symm,
      show v2 = (List.range (n - 2)).map (nth v2) from
      ext_nth (by simpa using hv2) fun i hi => (nth_map_range _ _ _ (by omega)).symm]
    wprun
    refine wp_mono (Stencil3.new_form (by omega)) fun s hs => ?_
    wprun
    refine wp_mono (wp_chebNew (by omega)) ?_
    rintro _ rfl
    wprun
    trivial
  obtain ⟨b, e, _⟩ := wp_total.mp this
  exact ⟨b, e⟩

/-- `to_ortho` of the mixed basis, with a majorant. -/
theorem mixed_to_ortho (h16 : ((16:ℕ):ℝ) * R.u < 1) {n : ℕ} (hn : 4 ≤ n) {b : Compo (Rnd R)}
    (hb : Compo.new .dirichletNeumann n = ok b) {bR : Compo ℝ} (hbR : Compo.new .dirichletNeumann n = ok bR)
    (v : List (Rnd R)) (hv : v.length = b.lenSpec) :
    b.ortho = ⟨n, n⟩ ∧ bR.ortho = ⟨n, n⟩ ∧ v.length = n - 2 ∧
    ∀ (out : List (Rnd R)) (outR : List ℝ), out.length = n → outR.length = n →
    ∃ x y z, b.toOrthoSlice v out = ok x ∧ bR.toOrthoSlice (vals v) outR = ok y ∧ x.length = n ∧ y.length = n ∧
      z.length = n ∧ (∀ i < n, NearV R 16 (nth (vals x) i) (nth y i) (nth z i)) ∧
      ∀ V, Bounded V (vals v) → ∀ i < n, nth z i ≤ 3 * V := by
  have h0 := R.u_nonneg
  obtain ⟨_, hm, hor, s, l1, l2, hst, hs, hl⟩ := Compo.mixed_form hn hb
  obtain ⟨_, hmR, horR, sR, k1, k2, hstR, hsR, hlR⟩ := Compo.mixed_form hn hbR
  have hv' : v.length = n - 2 := hv.trans hm
  refine ⟨hor, horR, hv', fun out outR ho hoR => ?_⟩
  have hN : ∀ k < n - 2, NearV R 13 (l1 k).val (k1 k) 1 ∧ NearV R 13 (l2 k).val (k2 k) 1 := fun k hk => by
    obtain ⟨e1, e2⟩ := mixed_exact (hlR k hk).1 (hlR k hk).2
    rw [e1, e2]
    exact mixed_near (by push_cast at h16 ⊢; linarith) (hl k hk).1 (hl k hk).2
  have e : n - 2 + 2 = n := by omega
  have ef : nth (vals v) = fun j => (nth v j).val := funext fun j => Rnd.nth_vals v j
  refine ⟨_, _, (List.range n).map (mixMaj (nth (vals v))), by
      unfold Compo.toOrthoSlice; rw [hst]; exact hs.dot_eq (by omega) v out hv' (by omega), by
      unfold Compo.toOrthoSlice; rw [hstR]
      exact hsR.dot_eq (by omega) (vals v) outR (by rw [vals_length]; exact hv') (by omega),
    by simp [e], by simp [e], by simp, fun i hi => ?_, fun V bV i hi => ?_⟩
  · rw [Rnd.nth_vals, nth_map_range _ _ _ (by omega), nth_map_range _ _ _ (by omega), nth_map_range _ _ _ hi, ef]
    exact dot3_near (by omega) h16 (fun k hk => (hN k hk).1) (fun k hk => (hN k hk).2) (nth v) i (by omega)
  · rw [nth_map_range _ _ _ hi]
    have hV : 0 ≤ V := (abs_nonneg _).trans (bounded_iff.mp bV 0 (by rw [vals_length]; omega))
    exact mixMaj_le (fun j => bV.nth hV j) i

/-- C94 (`to_ortho`): the Chebyshev coefficients of a function in the mixed basis by rounded arithmetic differ from those
by exact arithmetic by at most `3 γ₁₆` times the largest coefficient. -/
theorem C94_to_ortho (h16 : 16 * R.u < 1) {n : ℕ} (hn : 4 ≤ n) (b : Compo (Rnd R))
    (hb : Compo.new .dirichletNeumann n = ok b) (bR : Compo ℝ) (hbR : Compo.new .dirichletNeumann n = ok bR)
    (v out : List (Rnd R)) (outR : List ℝ) (hv : v.length = b.lenSpec) (ho : out.length = b.lenOrth)
    (hoR : outR.length = bR.lenOrth) :
    ∃ x y, b.toOrthoSlice v out = ok x ∧ bR.toOrthoSlice (vals v) outR = ok y ∧
      ∀ V, Bounded V (vals v) → Within (3 * R.γ 16 * V) (vals x) y := by
  have h16' : ((16:ℕ):ℝ) * R.u < 1 := by push_cast; exact h16
  obtain ⟨hor, horR, hm, h⟩ := mixed_to_ortho h16' hn hb hbR v hv
  have e1 : b.lenOrth = n := by unfold Compo.lenOrth; rw [hor]; rfl
  have e2 : bR.lenOrth = n := by unfold Compo.lenOrth; rw [horR]; rfl
  obtain ⟨x, y, z, f1, f2, l1, l2, l3, hN, hZ⟩ := h out outR (ho.trans e1) (hoR.trans e2)
  refine ⟨x, y, f1, f2, fun V bV => ⟨by rw [vals_length, l1, l2], fun i hi => ?_⟩⟩
  rw [vals_length, l1] at hi
  have := (hN i hi).err.trans (mul_le_mul_of_nonneg_left (hZ V bV i hi) (R.γ_nonneg h16'))
  linarith

/-- C94 (gradient): the `d`-th derivative of a function in the mixed basis by rounded arithmetic differs from that by exact
arithmetic by at most `3 γ_{16 + d (n/2+6)} (n²/2)^d` times the largest coefficient. -/
theorem C94_gradient {n : ℕ} (hn : 4 ≤ n) (d : ℕ)
    (hu : ((16 + d * (n / 2 + 6) : ℕ) : ℝ) * R.u < 1) (b : Compo (Rnd R)) (hb : Compo.new .dirichletNeumann n = ok b)
    (bR : Compo ℝ) (hbR : Compo.new .dirichletNeumann n = ok bR) (v out : List (Rnd R)) (outR : List ℝ)
    (hv : v.length = b.lenSpec) (ho : out.length = b.lenOrth) (hoR : outR.length = bR.lenOrth) :
    ∃ x y, b.gradientSlice v out d = ok x ∧ bR.gradientSlice (vals v) outR d = ok y ∧
      ∀ V, Bounded V (vals v) → Within (R.γ (16 + d * (n / 2 + 6)) * (((n:ℝ) ^ 2 / 2) ^ d * (3 * V))) (vals x) y := by
  obtain ⟨hor, horR, hm, h⟩ := mixed_to_ortho (lt_of_le_of_lt (mul_le_mul_of_nonneg_right
    (by exact_mod_cast (Nat.le_add_right 16 _)) R.u_nonneg) hu) hn hb hbR v hv
  have e1 : b.lenOrth = n := by unfold Compo.lenOrth; rw [hor]; rfl
  have e2 : bR.lenOrth = n := by unfold Compo.lenOrth; rw [horR]; rfl
  obtain ⟨w, wR, wZ, f1, f2, l1, l2, l3, hN, hZ⟩ := h (List.replicate b.lenOrth 0) (List.replicate bR.lenOrth 0)
    (by simpa using e1) (by simpa using e2)
  have h1 : R.u < 1 := by
    refine lt_of_le_of_lt ?_ hu
    have := mul_le_mul_of_nonneg_right (show (1:ℝ) ≤ ((16 + d * (n / 2 + 6) : ℕ) : ℝ) by exact_mod_cast (by omega)) R.u_nonneg
    linarith
  obtain ⟨x, y, z, g1, g2, g3, m1, m2, m3, hx, hz⟩ := gradient_near (R := R) (p := 16) (by omega) d hu h1 w wR wZ l1 l2 l3 hN
  refine ⟨x, y, ?_, ?_, fun V bV => ⟨by rw [vals_length, m1, m2], fun i hi => ?_⟩⟩
  · unfold Compo.gradientSlice
    dsimp only
    rw [f1, bind_ok, hor, Cheb.gradient_eq _ _ l1 (ho.trans e1)]; exact g1
  · unfold Compo.gradientSlice
    dsimp only
    rw [f2, bind_ok, horR, Cheb.gradient_eq _ _ l2 (hoR.trans e2)]; exact g2
  · rw [vals_length, m1] at hi
    exact (hx i hi).err.trans (mul_le_mul_of_nonneg_left (hz (3 * V) (fun i hi => hZ V bV i hi) i hi) (R.γ_nonneg hu))

/-- `from_ortho` of the mixed basis in exact arithmetic solves the normal equations. -/
theorem mixed_exact_solve {n : ℕ} (hn : 6 ≤ n) {bR : Compo ℝ} (hbR : Compo.new .dirichletNeumann n = ok bR)
    (u out : List ℝ) (hu : u.length = n) (ho : out.length = n - 2) :
    ∃ y, bR.fromOrthoSlice u out = ok y ∧ y.length = n - 2 ∧ Solves (n - 2) mixA (nth y)
      (fun i => nth u i + mixL1 i * nth u (i + 1) + mixL2 i * nth u (i + 2)) := by
  obtain ⟨_, hm, hor, s, l1, l2, hst, hs, hl⟩ := Compo.mixed_form (by omega) hbR
  have e2 : bR.lenOrth = n := by unfold Compo.lenOrth; rw [hor]; rfl
  obtain ⟨y, hy, hyl⟩ := C19_from_ortho_total .dirichletNeumann n bR hbR hn u out (hu.trans e2.symm) (ho.trans hm.symm)
  refine ⟨y, hy, hyl.trans hm, ?_⟩
  have hy' : s.solve u out = ok y := by
    unfold Compo.fromOrthoSlice at hy; rw [hst] at hy; exact hy
  rw [hs.solve_eq u out (by omega) ho] at hy'
  have ex : ∀ k < n - 2, l1 k = mixL1 k ∧ l2 k = mixL2 k := fun k hk => mixed_exact (hl k hk).1 (hl k hk).2
  set r : List ℝ := (List.range (n - 2)).map (fun i => (1:ℝ) • nth u i + l1 i • nth u (i + 1) + l2 i • nth u (i + 2)) with hr
  have lr : r.length = n - 2 := by simp [hr]
  rcases C18_pdma_solves s.fdmaOff2 s.fdmaOff1 s.fdmaDiag s.fdmaOff1 s.fdmaOff2 r (by omega)
    (by rw [hs.foff2, lr]; simp) (by rw [hs.foff1, lr]; simp) (by rw [hs.fdiag, lr]; simp)
    (by rw [hs.foff1, lr]; simp) (by rw [hs.foff2, lr]; simp) with h | ⟨x, hx, -, hS, -⟩
  · rw [hy'] at h; cases h
  obtain rfl : y = x := Res.ok.inj (hy'.symm.trans hx)
  rw [lr] at hS
  intro i hi
  have hi' := hS i hi
  rw [matVec_pentaMat _ _ _ _ _ _ _ _ _ hi] at hi'
  unfold mixA
  rw [matVec_pentaMat _ _ _ _ _ _ _ _ _ hi]
  have o1 : ∀ k, k + 1 < n - 2 → nth s.fdmaOff1 k = mixO1 k := fun k hk => by
    rw [hs.foff1, nth_map_range _ _ _ (by omega), (ex k (by omega)).1, (ex (k + 1) (by omega)).1, (ex k (by omega)).2, one_mul]
    rfl
  have o2 : ∀ k, k + 2 < n - 2 → nth s.fdmaOff2 k = mixO2 k := fun k hk => by
    rw [hs.foff2, nth_map_range _ _ _ (by omega), (ex k (by omega)).2, one_mul]; rfl
  have o0 : nth s.fdmaDiag i = mixD i := by
    rw [hs.fdiag, nth_map_range _ _ _ hi, (ex i hi).1, (ex i hi).2, one_mul]; rfl
  have e0 : nth r i = nth u i + mixL1 i * nth u (i + 1) + mixL2 i * nth u (i + 2) := by
    rw [hr, nth_map_range _ _ _ hi, (ex i hi).1, (ex i hi).2]; simp
  rw [o0, e0] at hi'
  refine Eq.trans ?_ hi'
  congr 1
  · congr 1
    · congr 1
      congr 1
      · split
        · rw [o2 _ (by omega)]
        · rfl
      · split
        · rw [o1 _ (by omega)]
        · rfl
    · split
      · rw [o1 _ (by omega)]
      · rfl
  · split
    · rw [o2 _ (by omega)]
    · rfl

/-- `from_ortho` of the mixed basis, of inexact data. -/
private theorem mixed_from {n : ℕ} (hn : 6 ≤ n) (h36 : ((36:ℕ):ℝ) * R.u < 1) (hμ : 27 * (n:ℝ) ^ 3 * R.γ 36 < 2)
    {b : Compo (Rnd R)} (hb : Compo.new .dirichletNeumann n = ok b) {bR : Compo ℝ} (hbR : Compo.new .dirichletNeumann n = ok bR)
    (u out : List (Rnd R)) (uR outR : List ℝ) (hu : u.length = n) (huR : uR.length = n) (ho : out.length = n - 2)
    (hoR : outR.length = n - 2) :
    ∃ x y, b.fromOrthoSlice u out = ok x ∧ bR.fromOrthoSlice uR outR = ok y ∧
      (∀ X U ε, Bounded X (vals x) → Bounded U (vals u) → Within ε (vals u) uR →
        Within ((n:ℝ) ^ 3 / 2 * (27 * R.γ 36 * X + 3 * R.γ 16 * U + 2 * ε)) (vals x) y) ∧
      (27 * (n:ℝ) ^ 3 * R.γ 36 ≤ 1 → ∀ Y U ε, Bounded Y y → Bounded U (vals u) → Within ε (vals u) uR →
        Within ((n:ℝ) ^ 3 * (27 * R.γ 36 * Y + 3 * R.γ 16 * U + 2 * ε)) (vals x) y) := by
  have u0 := R.u_nonneg
  have g16 : 0 ≤ R.γ 16 := R.γ_nonneg (by push_cast at h36 ⊢; linarith)
  have g36 : 0 ≤ R.γ 36 := R.γ_nonneg h36
  obtain ⟨_, hm, hor, s, l1, l2, hst, hs, hl⟩ := Compo.mixed_form (by omega) hb
  have hN : ∀ k < n - 2, NearV R 13 (l1 k).val (mixL1 k) 1 ∧ NearV R 13 (l2 k).val (mixL2 k) 1 := fun k hk =>
    mixed_near (by push_cast at h36 ⊢; linarith) (hl k hk).1 (hl k hk).2
  obtain ⟨x, ex, hxl, A', r, hS, hE, hr⟩ := mixed_system hn h36 hμ hs (fun k hk => (hN k hk).1) (fun k hk => (hN k hk).2) u out hu ho
  obtain ⟨y, ey, hyl, hSy⟩ := mixed_exact_solve hn hbR uR outR huR hoR
  have n0 : (0:ℝ) < n := by exact_mod_cast (by omega)
  have base : ∀ X U ε, (∀ i < n - 2, |nth (vals x) i| ≤ X) → Bounded U (vals u) → Within ε (vals u) uR → ∀ i < n - 2,
      |nth (vals x) i - nth y i| ≤ (n:ℝ) ^ 3 / 2 * (27 * R.γ 36 * X + 3 * R.γ 16 * U + 2 * ε) := by
    intro X U ε bX bU hε i hi
    have bu : ∀ j < n, |nth (vals u) j| ≤ U := fun j hj => bounded_iff.mp bU j (by rw [vals_length]; omega)
    have be : ∀ j < n, |nth (vals u) j - nth uR j| ≤ ε := fun j hj => hε.2 j (by rw [vals_length]; omega)
    have := margin_forward (n := n - 2) (A := mixA) (A' := A') (μ := 2 / (n:ℝ) ^ 3) (by positivity) bX
      (fun i hi => mixA_margin hi) hE hS hSy (D := 3 * R.γ 16 * U + 2 * ε) (fun i hi => by
        have t1 := (hr i hi).err
        have t2 := mul_le_mul_of_nonneg_left (add_le_add (add_le_add (bu i (by omega)) (bu (i + 1) (by omega)))
          (bu (i + 2) (by omega))) g16
        have l1 := mixL1_pos i
        have l2 := mixL1_lt i
        have t3 : |(nth (vals u) i + mixL1 i * nth (vals u) (i + 1) + mixL2 i * nth (vals u) (i + 2))
            - (nth uR i + mixL1 i * nth uR (i + 1) + mixL2 i * nth uR (i + 2))| ≤ 2 * ε := by
          rw [mixL2_eq, show nth (vals u) i + mixL1 i * nth (vals u) (i + 1) + (mixL1 i - 1) * nth (vals u) (i + 2)
            - (nth uR i + mixL1 i * nth uR (i + 1) + (mixL1 i - 1) * nth uR (i + 2))
            = (nth (vals u) i - nth uR i) + mixL1 i * (nth (vals u) (i + 1) - nth uR (i + 1))
              - (1 - mixL1 i) * (nth (vals u) (i + 2) - nth uR (i + 2)) by ring]
          refine (abs_sub _ _).trans ((add_le_add_left (abs_add_le _ _) _).trans ?_)
          rw [abs_mul, abs_mul, abs_of_pos l1, abs_of_pos (show 0 < 1 - mixL1 i by linarith)]
          have q1 := be i (by omega)
          have q2 := mul_le_mul_of_nonneg_left (be (i + 1) (by omega)) l1.le
          have q3 := mul_le_mul_of_nonneg_left (be (i + 2) (by omega)) (show 0 ≤ 1 - mixL1 i by linarith)
          linarith
        have := abs_sub_le (r i) (nth (vals u) i + mixL1 i * nth (vals u) (i + 1) + mixL2 i * nth (vals u) (i + 2))
          (nth uR i + mixL1 i * nth uR (i + 1) + mixL2 i * nth uR (i + 2))
        linarith) i hi
    refine this.trans (le_of_eq ?_)
    field_simp
    ring
  have hlen : (vals x).length = y.length := by rw [vals_length, hxl, hyl]
  refine ⟨x, y, by unfold Compo.fromOrthoSlice; rw [hst]; exact ex, ey, fun X U ε bX bU hε => ⟨hlen, fun i hi => ?_⟩,
    fun hsm Y U ε bY bU hε => ⟨hlen, fun i hi => ?_⟩⟩
  · rw [vals_length, hxl] at hi
    exact base X U ε (fun i hi => bounded_iff.mp bX i (by rw [vals_length]; omega)) bU hε i hi
  · rw [vals_length, hxl] at hi
    have := absorb (m := n - 2) (x := nth (vals x)) (y := nth y) (A := (n:ℝ) ^ 3 / 2 * (27 * R.γ 36))
      (B := (n:ℝ) ^ 3 / 2 * (3 * R.γ 16 * U + 2 * ε)) (Y := Y) (by positivity) (by linarith) (by omega)
      (fun i hi => bounded_iff.mp bY i (by omega)) (fun X hX hb i hi => by
        have := base X U ε hb bU hε i hi
        linarith) i hi
    linarith

/-- C94 (`from_ortho`): the coefficients in the mixed basis of the function with Chebyshev coefficients `u`, by rounded
arithmetic against those by exact arithmetic. -/
theorem C94_from_ortho (h36 : 36 * R.u < 1) {n : ℕ} (hn : 6 ≤ n) (hμ : 27 * (n:ℝ) ^ 3 * R.γ 36 < 2) (b : Compo (Rnd R))
    (hb : Compo.new .dirichletNeumann n = ok b) (bR : Compo ℝ) (hbR : Compo.new .dirichletNeumann n = ok bR)
    (u out : List (Rnd R)) (outR : List ℝ) (hu : u.length = b.lenOrth) (ho : out.length = b.lenSpec)
    (hoR : outR.length = bR.lenSpec) :
    ∃ x y, b.fromOrthoSlice u out = ok x ∧ bR.fromOrthoSlice (vals u) outR = ok y ∧
      (∀ X U, Bounded X (vals x) → Bounded U (vals u) →
        Within ((n:ℝ) ^ 3 / 2 * (27 * R.γ 36 * X + 3 * R.γ 16 * U)) (vals x) y) ∧
      (27 * (n:ℝ) ^ 3 * R.γ 36 ≤ 1 → ∀ Y U, Bounded Y y → Bounded U (vals u) →
        Within ((n:ℝ) ^ 3 * (27 * R.γ 36 * Y + 3 * R.γ 16 * U)) (vals x) y) := by
  obtain ⟨_, hm, hor, _⟩ := Compo.mixed_form (by omega) hb
  obtain ⟨_, hmR, horR, _⟩ := Compo.mixed_form (by omega) hbR
  have e1 : b.lenOrth = n := by unfold Compo.lenOrth; rw [hor]; rfl
  obtain ⟨x, y, h1, h2, p1, p2⟩ := mixed_from hn (by push_cast; exact h36) hμ hb hbR u out (vals u) outR (hu.trans e1)
    (by rw [vals_length]; exact hu.trans e1) (ho.trans hm) (hoR.trans hmR)
  have hε : Within 0 (vals u) (vals u) := ⟨rfl, fun i _ => by simp⟩
  refine ⟨x, y, h1, h2, fun X U bX bU => ?_, fun hs Y U bY bU => ?_⟩
  · have := p1 X U 0 bX bU hε
    rwa [mul_zero, add_zero] at this
  · have := p2 hs Y U 0 bY bU hε
    rwa [mul_zero, add_zero] at this

/-- C94 (round trip): `from_ortho` after `to_ortho` in rounded arithmetic returns the coefficients up to `36 n³ γ₃₆` times the
largest of them. -/
theorem C94_round_trip (h36 : 36 * R.u < 1) {n : ℕ} (hn : 6 ≤ n) (hμ : 27 * (n:ℝ) ^ 3 * R.γ 36 ≤ 1) (b : Compo (Rnd R))
    (hb : Compo.new .dirichletNeumann n = ok b) (v out out' : List (Rnd R)) (hv : v.length = b.lenSpec)
    (ho : out.length = b.lenOrth) (ho' : out'.length = b.lenSpec) :
    ∃ u x, b.toOrthoSlice v out = ok u ∧ b.fromOrthoSlice u out' = ok x ∧
      ∀ V, Bounded V (vals v) → Within (36 * (n:ℝ) ^ 3 * R.γ 36 * V) (vals x) (vals v) := by
  have u0 := R.u_nonneg
  obtain ⟨bR, hbR⟩ : ∃ bR : Compo ℝ, Compo.new .dirichletNeumann n = ok bR := by
    obtain ⟨b, hb⟩ := newR2r_exists (some .dirichletNeumann) n (by omega) (by rintro c ⟨⟩; change 4 ≤ n; omega)
    obtain ⟨c, hc, -⟩ := composite_inv hb
    exact ⟨c, hc⟩
  obtain ⟨_, hm, hor, _⟩ := Compo.mixed_form (by omega) hb
  obtain ⟨_, hmR, horR, _⟩ := Compo.mixed_form (by omega) hbR
  have e1 : b.lenOrth = n := by unfold Compo.lenOrth; rw [hor]; rfl
  have e2 : bR.lenOrth = n := by unfold Compo.lenOrth; rw [horR]; rfl
  have h16 : ((16:ℕ):ℝ) * R.u < 1 := by push_cast; linarith
  obtain ⟨-, -, -, h⟩ := mixed_to_ortho h16 (by omega) hb hbR v hv
  obtain ⟨w, wR, wZ, f1, f2, l1, l2, l3, hN, hZ⟩ := h out (List.replicate bR.lenOrth 0) (ho.trans e1) (by simpa using e2)
  obtain ⟨u', g1, g2⟩ := C13_round_trip (K := ℝ) .dirichletNeumann (by simp) n bR hbR hn (vals v) (List.replicate bR.lenOrth 0)
    (List.replicate bR.lenSpec 0) (by rw [vals_length]; exact (hv.trans hm).trans hmR.symm) (by simp) (by simp)
  obtain rfl : wR = u' := Res.ok.inj (f2.symm.trans g1)
  obtain ⟨x, y, q1, q2, -, p2⟩ := mixed_from hn (by push_cast; exact h36) (by linarith) hb hbR w out' wR
    (List.replicate bR.lenSpec 0) l1 l2 (ho'.trans hm) (by rw [List.length_replicate]; exact hmR)
  obtain rfl : y = vals v := Res.ok.inj (q2.symm.trans g2)
  refine ⟨w, x, f1, q1, fun V bV => ?_⟩
  have hvl : v.length = n - 2 := hv.trans hm
  have hV : 0 ≤ V := (abs_nonneg _).trans (bounded_iff.mp bV 0 (by rw [vals_length]; omega))
  have g16 : 0 ≤ R.γ 16 := R.γ_nonneg h16
  have ga := R.γ_add (j := 16) (k := 16) (by push_cast; linarith)
  have gm := R.γ_mono (j := 32) (k := 36) (by omega) (by push_cast; exact h36)
  change R.γ 16 + R.γ 16 + R.γ 16 * R.γ 16 ≤ R.γ 32 at ga
  have hW : Within (R.γ 16 * (3 * V)) (vals w) wR := ⟨by rw [vals_length, l1, l2], fun j hj => by
    rw [vals_length, l1] at hj
    exact (hN j hj).err.trans (mul_le_mul_of_nonneg_left (hZ V bV j hj) g16)⟩
  have hWR : Bounded (3 * V) wR := bounded_iff.mpr fun j hj => (hN j (by omega)).le.trans (hZ V bV j (by omega))
  obtain ⟨t1, t2⟩ := p2 hμ V _ _ bV (bounded_within hW hWR) hW
  refine ⟨t1, fun i hi => (t2 i hi).trans ?_⟩
  have n0 : (0:ℝ) ≤ (n:ℝ) ^ 3 := by positivity
  have k1 : 27 * R.γ 36 * V + 3 * R.γ 16 * (R.γ 16 * (3 * V) + 3 * V) + 2 * (R.γ 16 * (3 * V)) ≤ 36 * R.γ 36 * V := by
    have : 15 * R.γ 16 + 9 * (R.γ 16 * R.γ 16) ≤ 9 * R.γ 36 := by linarith
    have := mul_le_mul_of_nonneg_right this hV
    linarith
  have := mul_le_mul_of_nonneg_left k1 n0
  linarith

section transforms
variable [HasDct (Rnd R)]

/-- C94 (forward): the coefficients in the mixed basis of all values `v` by rounded arithmetic against those by exact
arithmetic. -/
theorem C94_forward {n : ℕ} {η : ℝ} (h0 : 0 ≤ η) (h36 : 36 * R.u < 1) (hD : DctError R n η) (hn : 6 ≤ n)
    (hμ : 27 * (n:ℝ) ^ 3 * R.γ 36 < 2) (b : Compo (Rnd R)) (hb : Compo.new .dirichletNeumann n = ok b) (bR : Compo ℝ)
    (hbR : Compo.new .dirichletNeumann n = ok bR) (v out : List (Rnd R)) (outR : List ℝ) (hv : v.length = b.lenPhys)
    (ho : out.length = b.lenSpec) (hoR : outR.length = bR.lenSpec) :
    ∃ x y, b.forwardSlice v out = ok x ∧ bR.forwardSlice (vals v) outR = ok y ∧
      (∀ X V, Bounded X (vals x) → Bounded V (vals v) →
        Within ((n:ℝ) ^ 3 / 2 * (27 * R.γ 36 * X + 8 * ((1 + η) * (1 + R.γ 24) - 1) * V)) (vals x) y) ∧
      (27 * (n:ℝ) ^ 3 * R.γ 36 ≤ 1 → ∀ Y V, Bounded Y y → Bounded V (vals v) →
        Within ((n:ℝ) ^ 3 * (27 * R.γ 36 * Y + 8 * ((1 + η) * (1 + R.γ 24) - 1) * V)) (vals x) y) := by
  have hu0 := R.u_nonneg
  obtain ⟨hbn, hm, hor, _⟩ := Compo.mixed_form (by omega) hb
  obtain ⟨_, hmR, horR, _⟩ := Compo.mixed_form (by omega) hbR
  have e1 : b.lenOrth = n := by unfold Compo.lenOrth; rw [hor]; rfl
  have e2 : bR.lenOrth = n := by unfold Compo.lenOrth; rw [horR]; rfl
  have hv' : v.length = n := hv.trans hbn
  have hc : Cheb.new n = ok ⟨n, n⟩ := cheb_new_ok (by omega)
  obtain ⟨c, cR, ec, ecR, hcc, hcb⟩ := C76_forward h0 (by linarith) hD ⟨n, n⟩ hc v (List.replicate b.lenOrth 0)
    (List.replicate bR.lenOrth 0) hv' (by rw [List.length_replicate]; exact e1) (by rw [List.length_replicate]; exact e2)
  have hcRl : cR.length = n := (Cheb.forward_sub (by omega) (by rw [vals_length, hv']) (by rw [vals_length, hv'])
    (by simpa using e2) (by simpa using e2) ecR ecR).1
  have hcl : c.length = n := by have := hcc.1; rwa [vals_length, hcRl] at this
  obtain ⟨x, y, q1, q2, p1, p2⟩ := mixed_from hn (by push_cast; exact h36) hμ hb hbR c out cR outR hcl hcRl (ho.trans hm)
    (hoR.trans hmR)
  have bU := bounded_within hcc hcb
  have hn2 : (6:ℝ) ≤ n := by exact_mod_cast hn
  have g16 := R.γ_nonneg (k := 16) (by push_cast; linarith)
  have g8 := R.γ_nonneg (k := 8) (by push_cast; linarith)
  have ga := R.γ_add (j := 16) (k := 8) (by push_cast; linarith)
  change R.γ 16 + R.γ 8 + R.γ 16 * R.γ 8 ≤ R.γ 24 at ga
  have e8 : 0 ≤ (1 + η) * (1 + R.γ 8) - 1 := by nlinarith
  have key : (1 + R.γ 16) * ((1 + η) * (1 + R.γ 8)) ≤ (1 + η) * (1 + R.γ 24) := by
    have := mul_le_mul_of_nonneg_left (show (1 + R.γ 16) * (1 + R.γ 8) ≤ 1 + R.γ 24 by linarith) (show 0 ≤ 1 + η by linarith)
    linarith
  have bnd : ∀ V, Bounded V (vals v) → 3 * R.γ 16 * (((1 + η) * (1 + R.γ 8) - 1) * (2 / ((n:ℝ) - 1) * absSum (vals v))
      + 2 / ((n:ℝ) - 1) * absSum (vals v)) + 2 * (((1 + η) * (1 + R.γ 8) - 1) * (2 / ((n:ℝ) - 1) * absSum (vals v)))
      ≤ 8 * ((1 + η) * (1 + R.γ 24) - 1) * V := by
    intro V bV
    have hV : 0 ≤ V := (abs_nonneg _).trans (bounded_iff.mp bV 0 (by rw [vals_length]; omega))
    have hS : 2 / ((n:ℝ) - 1) * absSum (vals v) ≤ 12 / 5 * V := by
      have := absSum_le bV
      rw [vals_length, hv'] at this
      rw [div_mul_eq_mul_div, div_le_iff₀ (by linarith)]
      nlinarith
    have hS0 : 0 ≤ 2 / ((n:ℝ) - 1) * absSum (vals v) :=
      mul_nonneg (div_nonneg (by norm_num) (by linarith)) (absSum_nonneg _)
    generalize 2 / ((n:ℝ) - 1) * absSum (vals v) = S at *
    have q1 := mul_le_mul_of_nonneg_right (show (1 + R.γ 16) * ((1 + η) * (1 + R.γ 8)) - 1
      ≤ (1 + η) * (1 + R.γ 24) - 1 by linarith) (show 0 ≤ 3 * S by linarith)
    have g24 : 0 ≤ (1 + η) * (1 + R.γ 24) - 1 := by
      have := mul_nonneg g16 e8
      nlinarith
    have q2 := mul_le_mul_of_nonneg_left hS (show 0 ≤ 3 * ((1 + η) * (1 + R.γ 24) - 1) by linarith)
    have q3 := mul_nonneg e8 hS0
    have q4 := mul_nonneg g24 hV
    linarith
  have n0 : (0:ℝ) ≤ (n:ℝ) ^ 3 := by positivity
  refine ⟨x, y, ?_, ?_, fun X V bX bV => ?_, fun hs Y V bY bV => ?_⟩
  · unfold Compo.forwardSlice
    dsimp only
    rw [hor, ec, bind_ok]; exact q1
  · unfold Compo.forwardSlice
    dsimp only
    rw [horR, ecR, bind_ok]; exact q2
  · obtain ⟨t1, t2⟩ := p1 X _ _ bX bU hcc
    refine ⟨t1, fun i hi => (t2 i hi).trans (mul_le_mul_of_nonneg_left ?_ (by linarith))⟩
    have := bnd V bV
    linarith
  · obtain ⟨t1, t2⟩ := p2 hs Y _ _ bY bU hcc
    refine ⟨t1, fun i hi => (t2 i hi).trans (mul_le_mul_of_nonneg_left ?_ n0)⟩
    have := bnd V bV
    linarith

/-- C94 (backward): the values of a function in the mixed basis by rounded arithmetic differ from those by exact arithmetic
by at most `6 n` times the largest coefficient times the error of a transform. -/
theorem C94_backward {n : ℕ} {η : ℝ} (h0 : 0 ≤ η)
    (hu : 19 * R.u < 1) (hD : DctError R n η) (hn : 4 ≤ n) (b : Compo (Rnd R)) (hb : Compo.new .dirichletNeumann n = ok b)
    (bR : Compo ℝ) (hbR : Compo.new .dirichletNeumann n = ok bR) (v out : List (Rnd R)) (outR : List ℝ)
    (hv : v.length = b.lenSpec) (ho : out.length = n) (hoR : outR.length = n) :
    ∃ x y, b.backwardSlice v out = ok x ∧ bR.backwardSlice (vals v) outR = ok y ∧
      ∀ V, Bounded V (vals v) → Within (6 * n * ((1 + η) * (1 + R.γ 19) - 1) * V) (vals x) y := by
  have hu0 := R.u_nonneg
  obtain ⟨hor, horR, hm, h⟩ := mixed_to_ortho (by push_cast; linarith) hn hb hbR v hv
  have e1 : b.lenOrth = n := by unfold Compo.lenOrth; rw [hor]; rfl
  have e2 : bR.lenOrth = n := by unfold Compo.lenOrth; rw [horR]; rfl
  obtain ⟨w, wR, wZ, f1, f2, l1, l2, l3, hN, hZ⟩ := h (List.replicate b.lenOrth 0) (List.replicate bR.lenOrth 0)
    (by simpa using e1) (by simpa using e2)
  have hc : Cheb.new n = ok ⟨n, n⟩ := cheb_new_ok (by omega)
  obtain ⟨x, xR, ex, exR, hx⟩ := C76_backward h0 (by linarith) hD ⟨n, n⟩ hc w out outR l1 ho hoR
  obtain ⟨y, ey, -⟩ := C03_forward_backward n ⟨n, n⟩ hc wR outR wR l2 hoR l2
  obtain ⟨m1, m2, hs⟩ := Cheb.backward_sub (by omega) (by rw [vals_length, l1]) l2 hoR hoR exR ey
  refine ⟨x, y, ?_, ?_, fun V bV => ⟨by rw [hx.1, m1, m2], fun i hi => ?_⟩⟩
  · unfold Compo.backwardSlice
    dsimp only
    rw [f1, bind_ok, hor]; exact ex
  · unfold Compo.backwardSlice
    dsimp only
    rw [f2, bind_ok, horR]; exact ey
  have hi' : i < n := by rw [hx.1, m1] at hi; exact hi
  have hV : 0 ≤ V := (abs_nonneg _).trans (bounded_iff.mp bV 0 (by rw [vals_length]; omega))
  have g5 := R.γ_nonneg (k := 16) (by push_cast; linarith)
  have g3 := R.γ_nonneg (k := 3) (by push_cast; linarith)
  have ga := R.γ_add (j := 16) (k := 3) (by push_cast; linarith)
  have hW : Within (R.γ 16 * (3 * V)) (vals w) wR := ⟨by rw [vals_length, l1, l2], fun j hj => by
    rw [vals_length, l1] at hj
    exact (hN j hj).err.trans (mul_le_mul_of_nonneg_left (hZ V bV j hj) g5)⟩
  have hWR : Bounded (3 * V) wR := bounded_iff.mpr fun j hj => (hN j (by omega)).le.trans (hZ V bV j (by omega))
  have t1 := hx.2 i hi
  have t2 := hs i hi'
  have t3 := sum_within hW (by rw [vals_length, l1])
  have t4 := absSum_le (bounded_within hW hWR)
  rw [vals_length, l1] at t4
  have tt := abs_sub_le (nth (vals x) i) (nth xR i) (nth y i)
  have e3 : 0 ≤ (1 + η) * (1 + R.γ 3) - 1 := by nlinarith
  have key := mul_le_mul_of_nonneg_left (show (1 + R.γ 16) * (1 + R.γ 3) ≤ 1 + R.γ 19 by linarith) (show 0 ≤ 1 + η by linarith)
  have q1 := mul_le_mul_of_nonneg_left t4 (show 0 ≤ 2 * ((1 + η) * (1 + R.γ 3) - 1) by linarith)
  have q2 := mul_le_mul_of_nonneg_right (show (1 + η) * ((1 + R.γ 16) * (1 + R.γ 3)) - 1 ≤ (1 + η) * (1 + R.γ 19) - 1 by linarith)
    (show 0 ≤ 6 * (n * V) by positivity)
  linarith

end transforms

attribute [local instance] roundedDct

/-- numbers with 53 binary digits, the mixed basis of size 1000, coefficients of modulus at most 1 -/
example : ∃ (b : Compo (Rnd (binary 52))) (bR : Compo ℝ), Compo.new .dirichletNeumann 1000 = ok b ∧
    Compo.new .dirichletNeumann 1000 = ok bR ∧
    ∀ v out : List (Rnd (binary 52)), v.length = 998 → out.length = 1000 → Bounded 1 (vals v) →
      (∃ x y, b.toOrthoSlice v out = ok x ∧ bR.toOrthoSlice (vals v) (vals out) = ok y ∧ Within (1 / 10 ^ 14) (vals x) y) ∧
      (∃ x y, b.backwardSlice v out = ok x ∧ bR.backwardSlice (vals v) (vals out) = ok y ∧ Within (1 / 10 ^ 10) (vals x) y) ∧
      ∃ x y, b.gradientSlice v out 1 = ok x ∧ bR.gradientSlice (vals v) (vals out) 1 = ok y ∧
        Within (1 / 10 ^ 6) (vals x) y := by
  obtain ⟨b, hb⟩ := C94_new (R := binary 52) (by rw [u52']; norm_num) (n := 1000) (by omega)
  obtain ⟨bR, hbR⟩ : ∃ bR : Compo ℝ, Compo.new .dirichletNeumann 1000 = ok bR := by
    obtain ⟨b, hb⟩ := newR2r_exists (some .dirichletNeumann) 1000 (by norm_num) (by rintro c ⟨⟩; decide)
    obtain ⟨c, hc, -⟩ := composite_inv hb
    exact ⟨c, hc⟩
  obtain ⟨hn, hm, hor, _⟩ := Compo.mixed_form (by omega) hb
  obtain ⟨_, hmR, horR, _⟩ := Compo.mixed_form (by omega) hbR
  have o1 : b.lenOrth = 1000 := by unfold Compo.lenOrth; rw [hor]; rfl
  have o2 : bR.lenOrth = 1000 := by unfold Compo.lenOrth; rw [horR]; rfl
  refine ⟨b, bR, hb, hbR, fun v out hv ho bV => ⟨?_, ?_, ?_⟩⟩
  · obtain ⟨x, y, h1, h2, h3⟩ := C94_to_ortho (by rw [u52']; norm_num) (by omega) b hb bR hbR v out (vals out)
      (hv.trans hm.symm) (ho.trans o1.symm) (by rw [vals_length]; exact ho.trans o2.symm)
    refine ⟨x, y, h1, h2, (h3 1 bV).1, fun i hi => ((h3 1 bV).2 i hi).trans ?_⟩
    rw [gam52']; norm_num
  · obtain ⟨x, y, h1, h2, h3⟩ := C94_backward (η := (binary 52).u) (binary 52).u_nonneg
      (by rw [u52']; norm_num) (rounded_error (by omega)) (by omega) b hb bR hbR v out (vals out) (hv.trans hm.symm) ho
      (by rw [vals_length]; exact ho)
    refine ⟨x, y, h1, h2, (h3 1 bV).1, fun i hi => ((h3 1 bV).2 i hi).trans ?_⟩
    rw [gam52', u52']; norm_num
  · obtain ⟨x, y, h1, h2, h3⟩ := C94_gradient (n := 1000) (by omega) 1 (by rw [u52']; norm_num) b hb bR hbR
      v out (vals out) (hv.trans hm.symm) (ho.trans o1.symm) (by rw [vals_length]; exact ho.trans o2.symm)
    refine ⟨x, y, h1, h2, (h3 1 bV).1, fun i hi => ((h3 1 bV).2 i hi).trans ?_⟩
    rw [gam52']; norm_num

/-- the same numbers, size 100: the round trip, and `forward` of values of modulus at most 1 with coefficients of modulus at
most 3 -/
example : ∃ (b : Compo (Rnd (binary 52))) (bR : Compo ℝ), Compo.new .dirichletNeumann 100 = ok b ∧
    Compo.new .dirichletNeumann 100 = ok bR ∧
    (∀ v : List (Rnd (binary 52)), v.length = 98 → Bounded 1 (vals v) →
      ∃ u x, b.toOrthoSlice v (List.replicate 100 0) = ok u ∧ b.fromOrthoSlice u (List.replicate 98 0) = ok x ∧
        Within (1 / 10 ^ 6) (vals x) (vals v)) ∧
    ∀ v : List (Rnd (binary 52)), v.length = 100 → Bounded 1 (vals v) →
      ∃ x y, b.forwardSlice v (List.replicate 98 0) = ok x ∧ bR.forwardSlice (vals v) (List.replicate 98 0) = ok y ∧
        (Bounded 3 y → Within (1 / 10 ^ 6) (vals x) y) := by
  obtain ⟨b, hb⟩ := C94_new (R := binary 52) (by rw [u52']; norm_num) (n := 100) (by omega)
  obtain ⟨bR, hbR⟩ : ∃ bR : Compo ℝ, Compo.new .dirichletNeumann 100 = ok bR := by
    obtain ⟨b, hb⟩ := newR2r_exists (some .dirichletNeumann) 100 (by norm_num) (by rintro c ⟨⟩; decide)
    obtain ⟨c, hc, -⟩ := composite_inv hb
    exact ⟨c, hc⟩
  obtain ⟨hn, hm, hor, _⟩ := Compo.mixed_form (by omega) hb
  obtain ⟨_, hmR, horR, _⟩ := Compo.mixed_form (by omega) hbR
  have o1 : b.lenOrth = 100 := by unfold Compo.lenOrth; rw [hor]; rfl
  refine ⟨b, bR, hb, hbR, fun v hv bV => ?_, fun v hv bV => ?_⟩
  · obtain ⟨u, x, h1, h2, h3⟩ := C94_round_trip (by rw [u52']; norm_num) (n := 100) (by omega) (by rw [gam52']; norm_num)
      b hb v (List.replicate 100 0) (List.replicate 98 0) (hv.trans hm.symm) (by rw [List.length_replicate]; exact o1.symm)
      (by rw [List.length_replicate]; exact hm.symm)
    refine ⟨u, x, h1, h2, (h3 1 bV).1, fun i hi => ((h3 1 bV).2 i hi).trans ?_⟩
    rw [gam52']; norm_num
  · obtain ⟨x, y, h1, h2, -, h3⟩ := C94_forward (η := (binary 52).u) (binary 52).u_nonneg (by rw [u52']; norm_num)
      (rounded_error (by omega)) (n := 100) (by omega) (by rw [gam52']; norm_num) b hb bR hbR v (List.replicate 98 0)
      (List.replicate 98 0) (hv.trans hn.symm) (by rw [List.length_replicate]; exact hm.symm)
      (by rw [List.length_replicate]; exact hmR.symm)
    refine ⟨x, y, h1, h2, fun bY => ?_⟩
    have := h3 (by rw [gam52']; norm_num) 3 1 bY bV
    refine ⟨this.1, fun i hi => (this.2 i hi).trans ?_⟩
    rw [gam52', gam52', u52']; norm_num

end Verif.Props
