/-
Property theorems: rounding errors.  The programs run in arithmetic with rounding (`Rnd R`: every operation returns
the exact result with a relative error of at most `R.u`) and are compared with the same programs in exact arithmetic.
-/
import Verif.Proof.RndForm
import Verif.Props.Stencils
import Verif.Props.Sizes
import Verif.Spec.Binary

namespace Verif.Props
open Verif Res Spec

variable {R : Rounding}

/-- C71: the tridiagonal solver is backward stable on diagonally dominant systems of every size: it returns, without
dividing by zero, and its result is the exact solution of a system whose entries differ from those given by a relative
error of a few roundings. -/
theorem C71_tdma_backward_stable (hR : R.Nearest) (h5 : 5 * R.u < 1) (l2 d0 u2 rhs : List (Rnd R))
    (hn : 3 ≤ rhs.length) (hl : l2.length = rhs.length - 2) (hd : d0.length = rhs.length)
    (hu : u2.length = rhs.length - 2) (fl : ∀ x ∈ vals l2, R.IsFloat x) (fu : ∀ x ∈ vals u2, R.IsFloat x)
    (hdom : Dominant rhs.length (triMat (nth (vals l2)) (nth (vals d0)) (nth (vals u2)))) :
    ∃ x, tdma l2 d0 u2 rhs = ok x ∧ x.length = rhs.length ∧ ∃ A : ℕ → ℕ → ℝ,
      Solves rhs.length A (nth (vals x)) (nth (vals rhs)) ∧
      ∀ i < rhs.length, ∀ j < rhs.length,
        |A i j - triMat (nth (vals l2)) (nth (vals d0)) (nth (vals u2)) i j|
          ≤ R.γ 5 * (|triMat (nth (vals l2)) (nth (vals d0)) (nth (vals u2)) i j|
            + if i = j then 2 * leftSum (triMat (nth (vals l2)) (nth (vals d0)) (nth (vals u2))) i else 0) := by
  have h0 := R.u_nonneg
  have g5 := R.γ_nonneg (k := 5) (by push_cast; linarith)
  have mem : ∀ {l : List ℝ} {i : ℕ}, i < l.length → nth l i ∈ l := fun {l i} h => by
    rw [nth_eq_getElem _ _ h]; exact List.getElem_mem h
  obtain ⟨x, e, hx, l', d', u', hs, p1, p2, p3⟩ := wp_total.mp (tri_dominant (Q := fun _ => False) hR h5 l2 d0 u2 rhs hn
    rfl hl hd hu (fun i hi => fl _ (mem (by rw [vals_length]; omega))) (fun i hi => fu _ (mem (by rw [vals_length]; omega)))
    (fun i hi => by have := (hdom i hi).1; rwa [leftSum_tri, rightSum_tri, triMat_diag] at this)
    (fun i hi => by have := (hdom i hi).2; rwa [leftSum_tri, triMat_diag] at this))
  refine ⟨x, e, hx, triMat l' d' u', hs, fun i hi j hj => ?_⟩
  rw [leftSum_tri]
  rcases Nat.lt_trichotomy i j with h | rfl | h
  · simp only [triMat, if_neg (show ¬ i = j by omega), if_neg (show ¬ j = i by omega), if_neg (show ¬ j + 2 = i by omega)]
    by_cases h2 : j = i + 2
    · simp only [if_pos h2, zero_add, add_zero]
      exact (p2 i (by omega)).trans (mul_le_mul_of_nonneg_right (R.γ_mono (by omega) (by push_cast; linarith)) (abs_nonneg _))
    · simp [if_neg h2]
  · rw [if_pos rfl, triMat_diag, triMat_diag]; exact p3 i hi
  · simp only [triMat, if_neg (show ¬ i = j by omega), if_neg (show ¬ j = i by omega), if_neg (show ¬ j = i + 2 by omega)]
    by_cases h2 : j + 2 = i
    · simp only [if_pos h2, zero_add, add_zero]
      exact (p1 j (by omega)).trans (mul_le_mul_of_nonneg_right (R.γ_mono (by omega) (by push_cast; linarith)) (abs_nonneg _))
    · simp [if_neg h2]

/-- C72: in arithmetic with rounding the Dirichlet and Neumann constructors return for every `n ≥ 4`. -/
theorem C72_new (hu : R.u < 1) (k : CKind) (hk : k = .dirichlet ∨ k = .neumann) {n : ℕ} (hn : 4 ≤ n) :
    ∃ b : Compo (Rnd R), Compo.new k n = ok b := by
  rcases hk with rfl | rfl
  · have : wp (fun _ => False) (Compo.new (K := Rnd R) .dirichlet n) (fun _ => True) := by
      unfold Compo.new dirichletNew
      wprun
      rw [replicate_eq_map, replicate_eq_map]
      refine wp_mono (Stencil2.new_form (by omega)) fun s hs => ?_
      wprun
      refine wp_mono (wp_chebNew (by omega)) ?_
      rintro _ rfl
      wprun
      trivial
    obtain ⟨b, e, _⟩ := wp_total.mp this
    exact ⟨b, e⟩
  · have : wp (fun _ => False) (Compo.new (K := Rnd R) .neumann n) (fun _ => True) := by
      unfold Compo.new neumannNew
      wprun
      refine wp_keep (n - 2) (by simp) ?_ ?_
      · intro i _ hi v hv
        wprun
        refine wp_divE ⟨_, Rnd.div_ok ?_⟩ fun y _ => ?_
        · rw [Rnd.val_cast]
          exact R.fl_ne_zero hu (by positivity)
        · wprun
          simpa using hv
      intro v hv
      rw [replicate_eq_map, show v = (List.range (n - 2)).map (nth v) from
        ext_nth (by simpa using hv) fun i hi => (nth_map_range _ _ _ (by omega)).symm]
      wprun
      refine wp_mono (Stencil2.new_form (by omega)) fun s hs => ?_
      wprun
      refine wp_mono (wp_chebNew (by omega)) ?_
      rintro _ rfl
      wprun
      trivial
    obtain ⟨b, e, _⟩ := wp_total.mp this
    exact ⟨b, e⟩

/-- the exact stencils -/
theorem exact_dirichlet {n : ℕ} (hn : 5 ≤ n) {bR : Compo ℝ} (hbR : Compo.new .dirichlet n = ok bR) :
    bR.m = n - 2 ∧ ∃ s : Stencil2 ℝ, bR.stencil = .dirichlet s ∧ s.Form (n - 2) (fun _ => 1) (fun _ => -1) := by
  obtain ⟨_, h2, _, s, h4, h5⟩ := Compo.dirichlet_form (by omega) hbR
  exact ⟨h2, s, h4, h5⟩

theorem exact_neumann {n : ℕ} (hn : 5 ≤ n) {bR : Compo ℝ} (hbR : Compo.new .neumann n = ok bR) :
    bR.m = n - 2 ∧ ∃ (s : Stencil2 ℝ) (l : ℕ → ℝ), bR.stencil = .neumann s ∧ s.Form (n - 2) (fun _ => 1) l ∧
      ∀ k < n - 2, l k = -neuA k := by
  obtain ⟨_, h2, _, s, l, h4, h5, h6⟩ := Compo.neumann_form (by omega) hbR
  refine ⟨h2, s, l, h4, h5, fun k hk => ?_⟩
  have := h6 k hk
  rw [divR_eq, if_neg (by positivity)] at this
  have := Res.ok.inj this
  rw [← this]
  unfold neuA
  push_cast
  rw [smul_eq_mul]
  field_simp

/-- the sizes of the error of `to_ortho` -/
private theorem to_ortho_err {κ m : ℕ} {s : Stencil2 (Rnd R)} {l : ℕ → Rnd R} {a : ℕ → ℝ}
    (hf : s.Form m (fun _ => 1) l) (a0 : ∀ i, 0 ≤ a i) (a1 : ∀ i, a i ≤ 1)
    (low : ∀ i < m, ∃ θ, Fac R.u κ θ ∧ (l i).val = -(a i) * θ) (hk2 : ((κ + 2 : ℕ) : ℝ) * R.u < 1) (hm : 2 ≤ m)
    {sR : Stencil2 ℝ} {lR : ℕ → ℝ} (hsR : sR.Form m (fun _ => 1) lR) (hlR : ∀ i < m, lR i = -a i)
    {v out : List (Rnd R)} {outR : List ℝ} (hv : v.length = m) (ho : out.length = m + 2) (hoR : outR.length = m + 2) :
    ∃ x y, s.dot v out = ok x ∧ sR.dot (vals v) outR = ok y ∧
      ∀ V, Bounded V (vals v) → Within (2 * R.γ (κ + 2) * V) (vals x) y := by
  obtain ⟨x, ex, hx, h⟩ := stencil_dot_err hf low hk2 hm v out hv ho
  obtain ⟨y, ey, hy, h'⟩ := exact_dot hsR hlR hm (vals v) outR (by rw [vals_length]; exact hv) hoR
  refine ⟨x, y, ex, ey, fun V bV => ⟨by rw [vals_length, hx, hy], fun i hi => ?_⟩⟩
  rw [vals_length, hx] at hi
  rw [h' i hi]
  have hV : 0 ≤ V := (abs_nonneg _).trans (bounded_iff.mp bV 0 (by rw [vals_length]; omega))
  have g := R.γ_nonneg hk2
  have lowV : |lowAt (fun j => a j * nth (vals v) j) i| ≤ V := by
    unfold lowAt
    split
    · rw [abs_mul, abs_of_nonneg (a0 _)]
      have := mul_le_mul (a1 (i - 2)) (bV.nth hV (i - 2)) (abs_nonneg _) zero_le_one
      linarith
    · rw [abs_zero]; exact hV
  refine (h i hi).trans ?_
  have := mul_le_mul_of_nonneg_left (add_le_add (bV.nth hV i) lowV) g
  linarith

/-- C72 (`to_ortho`): for the Dirichlet and the Neumann basis of every size `n ≥ 5` the result of `to_ortho` by rounded
arithmetic differs from that of exact arithmetic by at most a few roundings of the largest entry. -/
theorem C72_to_ortho (hR : R.Nearest) (h5 : 5 * R.u < 1) (k : CKind) (hk : k = .dirichlet ∨ k = .neumann) {n : ℕ}
    (hn : 5 ≤ n) (b : Compo (Rnd R)) (hb : Compo.new k n = ok b) (bR : Compo ℝ) (hbR : Compo.new k n = ok bR)
    (v out : List (Rnd R)) (outR : List ℝ) (hv : v.length = b.lenSpec) (ho : out.length = b.lenOrth)
    (hoR : outR.length = bR.lenOrth) :
    ∃ x y, b.toOrthoSlice v out = ok x ∧ bR.toOrthoSlice (vals v) outR = ok y ∧
      ∀ V, Bounded V (vals v) → Within (2 * R.γ 5 * V) (vals x) y := by
  have h0 := R.u_nonneg
  rcases hk with rfl | rfl
  · obtain ⟨_, hm, hor, s, hst, hs⟩ := Compo.dirichlet_form (by omega) hb
    obtain ⟨hmR, sR, hstR, hsR⟩ := exact_dirichlet hn hbR
    have horR := (Compo.dirichlet_form (by omega) hbR).2.2.1
    have e1 : b.lenOrth = n - 2 + 2 := by unfold Compo.lenOrth; rw [hor]; show n = _; omega
    have e2 : bR.lenOrth = n - 2 + 2 := by unfold Compo.lenOrth; rw [horR]; show n = _; omega
    obtain ⟨x, y, ex, ey, h⟩ := to_ortho_err (κ := 0) (a := fun _ => 1) hs (fun _ => zero_le_one) (fun _ => le_rfl)
      (fun i _ => ⟨1, Fac.one, by simp⟩) (by push_cast; linarith) (by omega) hsR (fun _ _ => rfl) (hv.trans hm)
      (ho.trans e1) (hoR.trans e2)
    refine ⟨x, y, by unfold Compo.toOrthoSlice; rw [hst]; exact ex, by unfold Compo.toOrthoSlice; rw [hstR]; exact ey,
      fun V bV => ?_⟩
    obtain ⟨hl, hi⟩ := h V bV
    refine ⟨hl, fun i hlt => (hi i hlt).trans ?_⟩
    have hV : 0 ≤ V := (abs_nonneg _).trans (bounded_iff.mp bV 0 (by rw [vals_length, hv]; show 0 < b.m; omega))
    have := R.γ_mono (j := 0 + 2) (k := 5) (by omega) (by push_cast; linarith)
    nlinarith
  · obtain ⟨_, hm, hor, s, l, hst, hs, hl⟩ := Compo.neumann_form (by omega) hb
    obtain ⟨hmR, sR, lR, hstR, hsR, hlR⟩ := exact_neumann hn hbR
    have horR := (Compo.neumann_form (by omega) hbR).2.2.1
    have e1 : b.lenOrth = n - 2 + 2 := by unfold Compo.lenOrth; rw [hor]; show n = _; omega
    have e2 : bR.lenOrth = n - 2 + 2 := by unfold Compo.lenOrth; rw [horR]; show n = _; omega
    obtain ⟨x, y, ex, ey, h⟩ := to_ortho_err (κ := 3) hs neuA_nonneg neuA_le
      (fun i hi => by obtain ⟨θ, f, e, _⟩ := neumann_low hR (by linarith) hl i hi; exact ⟨θ, f, e⟩)
      (by push_cast; linarith) (by omega) hsR hlR (hv.trans hm) (ho.trans e1) (hoR.trans e2)
    exact ⟨x, y, by unfold Compo.toOrthoSlice; rw [hst]; exact ex, by unfold Compo.toOrthoSlice; rw [hstR]; exact ey, h⟩

/-- C73 (Dirichlet): for every `n ≥ 5` and all data `from_ortho` by rounded arithmetic returns – no pivot is rounded to zero –
and its result differs from that of exact arithmetic by at most `(n+1)²/32` times a few roundings of the data and the
result; if `n²` roundings are small, the bound holds with the exact result in place of the computed one. -/
theorem C73_dirichlet (hR : R.Nearest) (h5 : 5 * R.u < 1) {n : ℕ} (hn : 5 ≤ n) (b : Compo (Rnd R))
    (hb : Compo.new .dirichlet n = ok b) (bR : Compo ℝ) (hbR : Compo.new .dirichlet n = ok bR)
    (u out : List (Rnd R)) (outR : List ℝ) (hu : u.length = b.lenOrth) (ho : out.length = b.lenSpec)
    (hoR : outR.length = bR.lenSpec) :
    ∃ x y, b.fromOrthoSlice u out = ok x ∧ bR.fromOrthoSlice (vals u) outR = ok y ∧
      (∀ X U, Bounded X (vals x) → Bounded U (vals u) →
        Within (((n:ℝ) + 1) ^ 2 / 32 * (6 * R.γ 5 * X + 2 * R.γ 2 * U)) (vals x) y) ∧
      (3 * ((n:ℝ) + 1) ^ 2 * R.γ 5 ≤ 8 → ∀ Y U, Bounded Y y → Bounded U (vals u) →
        Within (((n:ℝ) + 1) ^ 2 / 16 * (6 * R.γ 5 * Y + 2 * R.γ 2 * U)) (vals x) y) := by
  obtain ⟨_, hm, hor, s, hst, hs⟩ := Compo.dirichlet_form (by omega) hb
  obtain ⟨hmR, sR, hstR, hsR⟩ := exact_dirichlet hn hbR
  have hu' : u.length = n - 2 + 2 := by
    have : b.lenOrth = n := by unfold Compo.lenOrth; rw [hor]; rfl
    omega
  obtain ⟨y, hy, _⟩ := C19_from_ortho_total .dirichlet n bR hbR hn (vals u) outR
    (by rw [vals_length, hu]; unfold Compo.lenOrth; rw [hor, (Compo.dirichlet_form (by omega) hbR).2.2.1]) hoR
  have hy' : sR.solve (vals u) outR = ok y := by
    unfold Compo.fromOrthoSlice at hy; rw [hstR] at hy; exact hy
  obtain ⟨x, hx, _, h1, h2⟩ := (dirichlet_near hR h5 hn hs).from_ortho (by omega) hsR (fun _ _ => rfl) hu' (ho.trans hm)
    (hoR.trans hmR) hy'
  refine ⟨x, y, by unfold Compo.fromOrthoSlice; rw [hst]; exact hx, hy, h1, fun hsm Y U bY bU => ?_⟩
  have := h2 (by linarith) Y U bY bU
  rwa [show 2 * (((n:ℝ) + 1) ^ 2 / 32 * (6 * R.γ 5 * Y + 2 * R.γ (0 + 2) * U))
    = ((n:ℝ) + 1) ^ 2 / 16 * (6 * R.γ 5 * Y + 2 * R.γ 2 * U) by ring] at this

/-- C73 (Neumann): the same for every `n` with `(n-1)² γ₈ ≤ 1` (for `f64`: up to `n` of about `10⁷`). -/
theorem C73_neumann (hR : R.Nearest) (h13 : 13 * R.u < 1) {n : ℕ} (hn : 5 ≤ n) (h8 : ((n:ℝ) - 1) ^ 2 * R.γ 8 ≤ 1)
    (b : Compo (Rnd R)) (hb : Compo.new .neumann n = ok b) (bR : Compo ℝ) (hbR : Compo.new .neumann n = ok bR)
    (u out : List (Rnd R)) (outR : List ℝ) (hu : u.length = b.lenOrth) (ho : out.length = b.lenSpec)
    (hoR : outR.length = bR.lenSpec) :
    ∃ x y, b.fromOrthoSlice u out = ok x ∧ bR.fromOrthoSlice (vals u) outR = ok y ∧
      (∀ X U, Bounded X (vals x) → Bounded U (vals u) →
        Within (((n:ℝ) - 1) ^ 2 / 4 * (6 * R.γ 13 * X + 2 * R.γ 5 * U)) (vals x) y) ∧
      (3 * ((n:ℝ) - 1) ^ 2 * R.γ 13 ≤ 1 → ∀ Y U, Bounded Y y → Bounded U (vals u) →
        Within (((n:ℝ) - 1) ^ 2 / 2 * (6 * R.γ 13 * Y + 2 * R.γ 5 * U)) (vals x) y) := by
  obtain ⟨_, hm, hor, s, l, hst, hs, hl⟩ := Compo.neumann_form (by omega) hb
  obtain ⟨hmR, sR, lR, hstR, hsR, hlR⟩ := exact_neumann hn hbR
  have hu' : u.length = n - 2 + 2 := by
    have : b.lenOrth = n := by unfold Compo.lenOrth; rw [hor]; rfl
    omega
  obtain ⟨y, hy, _⟩ := C19_from_ortho_total .neumann n bR hbR hn (vals u) outR
    (by rw [vals_length, hu]; unfold Compo.lenOrth; rw [hor, (Compo.neumann_form (by omega) hbR).2.2.1]) hoR
  have hy' : sR.solve (vals u) outR = ok y := by
    unfold Compo.fromOrthoSlice at hy; rw [hstR] at hy; exact hy
  obtain ⟨x, hx, _, h1, h2⟩ := (neumann_near hR h13 hn h8 hs hl).from_ortho (by omega) hsR hlR hu' (ho.trans hm)
    (hoR.trans hmR) hy'
  refine ⟨x, y, by unfold Compo.fromOrthoSlice; rw [hst]; exact hx, hy, h1, fun hsm Y U bY bU => ?_⟩
  have := h2 (by linarith) Y U bY bU
  rwa [show 2 * (((n:ℝ) - 1) ^ 2 / 4 * (6 * R.γ 13 * Y + 2 * R.γ (3 + 2) * U))
    = ((n:ℝ) - 1) ^ 2 / 2 * (6 * R.γ 13 * Y + 2 * R.γ 5 * U) by ring] at this

/-- C74 (Dirichlet): `from_ortho(to_ortho(v))` by rounded arithmetic is `v` up to `n²` roundings of the largest entry of `v`. -/
theorem C74_dirichlet_round_trip (hR : R.Nearest) (h5 : 5 * R.u < 1) {n : ℕ} (hn : 5 ≤ n)
    (hsmall : 3 * ((n:ℝ) + 1) ^ 2 * R.γ 5 ≤ 8) (b : Compo (Rnd R))
    (hb : Compo.new .dirichlet n = ok b) (v w out : List (Rnd R)) (hv : v.length = b.lenSpec)
    (hw : w.length = b.lenOrth) (ho : out.length = b.lenSpec) :
    ∃ u x, b.toOrthoSlice v w = ok u ∧ b.fromOrthoSlice u out = ok x ∧
      ∀ V, Bounded V (vals v) → Within (((n:ℝ) + 1) ^ 2 * R.γ 5 * V) (vals x) (vals v) := by
  obtain ⟨_, hm, hor, s, hst, hs⟩ := Compo.dirichlet_form (by omega) hb
  have hw' : w.length = n - 2 + 2 := by
    have : b.lenOrth = n := by unfold Compo.lenOrth; rw [hor]; rfl
    omega
  have hN := dirichlet_near hR h5 hn hs
  obtain ⟨u, x, e1, e2, hx, _, h⟩ := hN.round_trip (by omega) (hv.trans hm) hw' (ho.trans hm)
  refine ⟨u, x, by unfold Compo.toOrthoSlice; rw [hst]; exact e1, by unfold Compo.fromOrthoSlice; rw [hst]; exact e2,
    fun V bV => ?_⟩
  obtain ⟨hl, hi⟩ := h (by linarith) V bV
  refine ⟨hl, fun i hlt => (hi i hlt).trans ?_⟩
  have hV : 0 ≤ V := (abs_nonneg _).trans (bounded_iff.mp bV 0 (by rw [vals_length, hv]; show 0 < b.m; omega))
  have g5 := R.γ_nonneg hN.small
  have g2 := R.γ_nonneg (hN.lt hN.kK)
  have hn' : (5:ℝ) ≤ n := by exact_mod_cast hn
  have g1 : R.γ 5 ≤ 2 / 25 := by nlinarith
  have g25 : R.γ 2 ≤ R.γ 5 := R.γ_mono (by omega) hN.small
  simp only [Nat.zero_add] at g2 ⊢
  have q : 6 * R.γ 5 * V + 4 * (2 + R.γ 2) * R.γ 2 * V ≤ 16 * (R.γ 5 * V) := by
    have : (2 + R.γ 2) * R.γ 2 ≤ 2.5 * R.γ 5 := by nlinarith
    nlinarith [mul_le_mul_of_nonneg_right this hV, mul_nonneg g5 hV]
  have := mul_le_mul_of_nonneg_left q (show 0 ≤ ((n:ℝ) + 1) ^ 2 / 32 by positivity)
  linarith

/-- C74 (Neumann): the same round trip. -/
theorem C74_neumann_round_trip (hR : R.Nearest) (h13 : 13 * R.u < 1) {n : ℕ} (hn : 5 ≤ n)
    (hsmall : 3 * ((n:ℝ) - 1) ^ 2 * R.γ 13 ≤ 1) (b : Compo (Rnd R))
    (hb : Compo.new .neumann n = ok b) (v w out : List (Rnd R)) (hv : v.length = b.lenSpec)
    (hw : w.length = b.lenOrth) (ho : out.length = b.lenSpec) :
    ∃ u x, b.toOrthoSlice v w = ok u ∧ b.fromOrthoSlice u out = ok x ∧
      ∀ V, Bounded V (vals v) → Within (8 * ((n:ℝ) - 1) ^ 2 * R.γ 13 * V) (vals x) (vals v) := by
  obtain ⟨_, hm, hor, s, l, hst, hs, hl⟩ := Compo.neumann_form (by omega) hb
  have hw' : w.length = n - 2 + 2 := by
    have : b.lenOrth = n := by unfold Compo.lenOrth; rw [hor]; rfl
    omega
  have hn' : (5:ℝ) ≤ n := by exact_mod_cast hn
  have g8 : R.γ 8 ≤ R.γ 13 := R.γ_mono (by omega) (by push_cast; exact h13)
  have g80 : 0 ≤ R.γ 8 := R.γ_nonneg (by push_cast; linarith [R.u_nonneg])
  have hN := neumann_near hR h13 hn (by linarith [mul_le_mul_of_nonneg_left g8 (sq_nonneg ((n:ℝ) - 1)), mul_nonneg (sq_nonneg ((n:ℝ) - 1)) g80]) hs hl
  obtain ⟨u, x, e1, e2, hx, _, h⟩ := hN.round_trip (by omega) (hv.trans hm) hw' (ho.trans hm)
  refine ⟨u, x, by unfold Compo.toOrthoSlice; rw [hst]; exact e1, by unfold Compo.fromOrthoSlice; rw [hst]; exact e2,
    fun V bV => ?_⟩
  obtain ⟨hl, hi⟩ := h (by linarith) V bV
  refine ⟨hl, fun i hlt => (hi i hlt).trans ?_⟩
  have hV : 0 ≤ V := (abs_nonneg _).trans (bounded_iff.mp bV 0 (by rw [vals_length, hv]; show 0 < b.m; omega))
  have g13 := R.γ_nonneg hN.small
  have g5 := R.γ_nonneg (hN.lt hN.kK)
  have sq : 16 ≤ ((n:ℝ) - 1) ^ 2 := by nlinarith
  have g1 : R.γ 13 ≤ 1 / 48 := by linarith [mul_le_mul_of_nonneg_right sq g13]
  have g25 : R.γ 5 ≤ R.γ 13 := R.γ_mono (by omega) hN.small
  simp only [show 3 + 2 = 5 from rfl] at g5 ⊢
  have q : 6 * R.γ 13 * V + 4 * (2 + R.γ 5) * R.γ 5 * V ≤ 16 * (R.γ 13 * V) := by
    have : (2 + R.γ 5) * R.γ 5 ≤ 2.5 * R.γ 13 := by nlinarith
    nlinarith [mul_le_mul_of_nonneg_right this hV, mul_nonneg g13 hV]
  have := mul_le_mul_of_nonneg_left q (show 0 ≤ ((n:ℝ) - 1) ^ 2 / 4 by positivity)
  linarith

/-! The hypotheses are met by rounding to the nearest number with 53 binary digits, as `f64` does. -/

private theorem u52 : (binary 52).u = 1 / 9007199254740992 := by show (2⁻¹ : ℝ) ^ 53 = _; norm_num

private theorem gam52 (k : ℕ) : (binary 52).γ k = k * (1 / 9007199254740992) / (1 - k * (1 / 9007199254740992)) := by
  unfold Rounding.γ; rw [u52]

/-- a dominant system: the tridiagonal solver on numbers with 53 binary digits -/
example : ∃ x, tdma (K := Rnd (binary 52)) (T := Rnd (binary 52)) [-1, -1] [⟨2⟩, ⟨2⟩, ⟨2⟩, ⟨2⟩] [-1, -1] [1, 1, 1, 1]
    = ok x := by
  have hR := binary_nearest 52
  obtain ⟨x, e, _⟩ := C71_tdma_backward_stable hR (by rw [u52]; norm_num) [-1, -1] [⟨2⟩, ⟨2⟩, ⟨2⟩, ⟨2⟩] [-1, -1]
    [1, 1, 1, 1] (by decide) rfl rfl rfl (by simpa [vals] using hR.neg hR.one) (by simpa [vals] using hR.neg hR.one)
    (by
      intro i hi
      rw [leftSum_tri, rightSum_tri, triMat_diag]
      have : i = 0 ∨ i = 1 ∨ i = 2 ∨ i = 3 := by simp at hi; omega
      rcases this with rfl | rfl | rfl | rfl <;> simp [lowAt, upAt, vals, nth] <;> norm_num)
  exact ⟨x, e⟩

/-- numbers with 53 binary digits, a Dirichlet basis of size 1000: `from_ortho(to_ortho(v))` is `v` up to `10⁻⁹` -/
example : ∃ b : Compo (Rnd (binary 52)), Compo.new .dirichlet 1000 = ok b ∧ b.lenSpec = 998 ∧ b.lenOrth = 1000 ∧
    ∀ v w out : List (Rnd (binary 52)), v.length = 998 → w.length = 1000 → out.length = 998 → Bounded 1 (vals v) →
    ∃ u x, b.toOrthoSlice v w = ok u ∧ b.fromOrthoSlice u out = ok x ∧ Within (1 / 10 ^ 9) (vals x) (vals v) := by
  obtain ⟨b, hb⟩ := C72_new (R := binary 52) (by rw [u52]; norm_num) .dirichlet (.inl rfl) (n := 1000) (by omega)
  obtain ⟨_, hm, hor, _⟩ := Compo.dirichlet_form (by omega) hb
  have e1 : b.lenSpec = 998 := hm
  have e2 : b.lenOrth = 1000 := by unfold Compo.lenOrth; rw [hor]; rfl
  refine ⟨b, hb, e1, e2, fun v w out hv hw ho bV => ?_⟩
  obtain ⟨u, x, h1, h2, h3⟩ := C74_dirichlet_round_trip (binary_nearest 52) (by rw [u52]; norm_num) (by omega)
    (by rw [gam52]; norm_num) b hb v w out (hv.trans e1.symm) (hw.trans e2.symm) (ho.trans e1.symm)
  refine ⟨u, x, h1, h2, (h3 1 bV).1, fun i hi => ((h3 1 bV).2 i hi).trans ?_⟩
  rw [gam52]; norm_num

/-- the same for a Neumann basis, and the forward error of `from_ortho` on data that no basis function represents -/
example : ∃ b : Compo (Rnd (binary 52)), Compo.new .neumann 1000 = ok b ∧ b.lenSpec = 998 ∧ b.lenOrth = 1000 ∧
    (∀ v w out : List (Rnd (binary 52)), v.length = 998 → w.length = 1000 → out.length = 998 → Bounded 1 (vals v) →
    ∃ u x, b.toOrthoSlice v w = ok u ∧ b.fromOrthoSlice u out = ok x ∧ Within (1 / 10 ^ 7) (vals x) (vals v)) ∧
    ∃ (bR : Compo ℝ) (x : List (Rnd (binary 52))) (y : List ℝ), Compo.new .neumann 1000 = ok bR ∧
      b.fromOrthoSlice (List.replicate 1000 1) (List.replicate 998 0) = ok x ∧
      bR.fromOrthoSlice (List.replicate 1000 1) (List.replicate 998 0) = ok y ∧
      ∀ Y, Bounded Y y → Within ((Y + 1) / 10 ^ 7) (vals x) y := by
  obtain ⟨b, hb⟩ := C72_new (R := binary 52) (by rw [u52]; norm_num) .neumann (.inr rfl) (n := 1000) (by omega)
  obtain ⟨_, hm, hor, _⟩ := Compo.neumann_form (by omega) hb
  have e1 : b.lenSpec = 998 := hm
  have e2 : b.lenOrth = 1000 := by unfold Compo.lenOrth; rw [hor]; rfl
  refine ⟨b, hb, e1, e2, fun v w out hv hw ho bV => ?_, ?_⟩
  · obtain ⟨u, x, h1, h2, h3⟩ := C74_neumann_round_trip (binary_nearest 52) (by rw [u52]; norm_num) (by omega)
      (by rw [gam52]; norm_num) b hb v w out (hv.trans e1.symm) (hw.trans e2.symm) (ho.trans e1.symm)
    refine ⟨u, x, h1, h2, (h3 1 bV).1, fun i hi => ((h3 1 bV).2 i hi).trans ?_⟩
    rw [gam52]; norm_num
  · obtain ⟨bR, hbR⟩ : ∃ bR : Compo ℝ, Compo.new .neumann 1000 = ok bR := by
      obtain ⟨b, hb⟩ := newR2r_exists (some .neumann) 1000 (by norm_num) (by rintro c ⟨⟩; decide)
      obtain ⟨c, hc, -⟩ := composite_inv hb
      exact ⟨c, hc⟩
    obtain ⟨_, hmR, horR, _⟩ := Compo.neumann_form (by omega) hbR
    have hv1 : vals (List.replicate 1000 (1 : Rnd (binary 52))) = List.replicate 1000 (1:ℝ) := by
      rw [vals, List.map_replicate, Rnd.val_one]
    obtain ⟨x, y, h1, h2, _, h3⟩ := C73_neumann (binary_nearest 52) (by rw [u52]; norm_num) (by omega)
      (by rw [gam52]; norm_num) b hb bR hbR (List.replicate 1000 1) (List.replicate 998 0) (List.replicate 998 0)
      (by rw [e2, List.length_replicate]) (by rw [e1, List.length_replicate])
      (by rw [List.length_replicate]; exact hmR.symm)
    rw [hv1] at h2 h3
    refine ⟨bR, x, y, hbR, h1, h2, fun Y bY => ?_⟩
    obtain ⟨hl, hi⟩ := h3 (by rw [gam52]; norm_num) Y 1 bY (by
      intro z hz; rw [List.eq_of_mem_replicate hz]; simp)
    have hY : 0 ≤ Y := (abs_nonneg _).trans (bounded_iff.mp bY 0 (by
      rw [← hl, vals_length]
      have := C19_from_ortho_total .neumann 1000 bR hbR (by decide) (List.replicate 1000 (1:ℝ)) (List.replicate 998 0)
        (by unfold Compo.lenOrth; rw [horR, List.length_replicate]; rfl) (by rw [List.length_replicate]; exact hmR.symm)
      obtain ⟨y', e, hy'⟩ := this
      have : y = y' := Res.ok.inj (h2.symm.trans e)
      rw [← vals_length, hl, this, hy']; show 0 < bR.m; omega))
    refine ⟨hl, fun i hlt => (hi i hlt).trans ?_⟩
    rw [gam52, gam52]; norm_num; linarith

end Verif.Props
