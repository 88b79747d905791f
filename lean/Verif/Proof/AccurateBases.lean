/- The operators of the Chebyshev-type bases are accurate in the maximum norm (for C96). -/
import Verif.Proof.AccurateOps
import Mathlib.Analysis.SpecialFunctions.Trigonometric.Chebyshev.RootsExtrema

namespace Verif.Props
open Verif Res Spec Finset
variable {R : Rounding}

/-! ### the orthogonal basis -/

theorem cheb_forward_acc [HasDct (Rnd R)] {n : ℕ} (hn : 2 ≤ n) {η : ℝ} (h0 : 0 ≤ η) (hu : 8 * R.u < 1) (hD : DctError R n η) :
    Accurate Rnd.val Rnd.val (Cheb.forwardSlice (A := Rnd R) ⟨n, n⟩) (Cheb.forwardSlice (A := ℝ) ⟨n, n⟩) n n
      (2 * n / ((n:ℝ) - 1)) (((1 + η) * (1 + R.γ 8) - 1) * (2 * n / ((n:ℝ) - 1))) := by
  have hn' : (2:ℝ) ≤ n := by exact_mod_cast hn
  have g8 := R.γ_nonneg (k := 8) (by push_cast; exact hu)
  have hL : 0 ≤ 2 * n / ((n:ℝ) - 1) := div_nonneg (by positivity) (by linarith)
  have hE : 0 ≤ (1 + η) * (1 + R.γ 8) - 1 := by nlinarith
  refine accurate_rnd (Cheb.forward_fresh _ _) (cheb_forward_lin hn) hL (mul_nonneg hE hL) fun x out outR hx ho hoR => ?_
  obtain ⟨r, rR, e, eR, h1, h2⟩ := C76_forward h0 hu hD ⟨n, n⟩ (cheb_new_ok hn) x out outR hx ho hoR
  refine ⟨r, rR, e, eR, fun X hX hb => ?_⟩
  have hs := absSum_le hb
  rw [vals_length, hx] at hs
  have hs' : 2 / ((n:ℝ) - 1) * absSum (vals x) ≤ 2 * n / ((n:ℝ) - 1) * X := by
    have := mul_le_mul_of_nonneg_left hs (show 0 ≤ 2 / ((n:ℝ) - 1) from div_nonneg (by norm_num) (by linarith))
    refine this.trans (le_of_eq ?_)
    ring
  refine ⟨⟨h1.1, fun i hi => (h1.2 i hi).trans ?_⟩, fun y hy => (h2 y hy).trans hs'⟩
  rw [mul_assoc]
  exact mul_le_mul_of_nonneg_left hs' hE

theorem cheb_backward_acc [HasDct (Rnd R)] {n : ℕ} (hn : 2 ≤ n) {η : ℝ} (h0 : 0 ≤ η) (hu : 3 * R.u < 1) (hD : DctError R n η) :
    Accurate Rnd.val Rnd.val (Cheb.backwardSlice (A := Rnd R) ⟨n, n⟩) (Cheb.backwardSlice (A := ℝ) ⟨n, n⟩) n n
      n (((1 + η) * (1 + R.γ 3) - 1) * (2 * n)) := by
  have g3 := R.γ_nonneg (k := 3) (by push_cast; exact hu)
  have hE : 0 ≤ (1 + η) * (1 + R.γ 3) - 1 := by nlinarith
  refine accurate_rnd (Cheb.backward_fresh _ _) (cheb_backward_lin hn) (by positivity) (mul_nonneg hE (by positivity))
    fun x out outR hx ho hoR => ?_
  obtain ⟨r, rR, e, eR, h1⟩ := C76_backward h0 hu hD ⟨n, n⟩ (cheb_new_ok hn) x out outR hx ho hoR
  refine ⟨r, rR, e, eR, fun X hX hb => ?_⟩
  have hs := absSum_le hb
  rw [vals_length, hx] at hs
  refine ⟨⟨h1.1, fun i hi => (h1.2 i hi).trans ?_⟩, bounded_iff.mpr fun i hi => ?_⟩
  · rw [mul_assoc]
    refine mul_le_mul_of_nonneg_left ?_ hE
    linarith
  · have hl : (vals x).length = n := by rw [vals_length]; exact hx
    obtain ⟨hlen, hv⟩ := chebVals_of_backward hn (vals x) outR hl hoR eR
    rw [hv i (by omega)]
    refine (Finset.abs_sum_le_sum_abs _ _).trans ?_
    calc _ ≤ ∑ _j ∈ range n, X := Finset.sum_le_sum fun j hj => by
          rw [abs_mul]
          have h1 : |(Polynomial.Chebyshev.T ℝ (j:ℤ)).eval (chebPt n i)| ≤ 1 :=
            Polynomial.Chebyshev.abs_eval_T_real_le_one _ (by unfold chebPt; rw [abs_neg]; exact Real.abs_cos_le_one _)
          have h2 := hb.nth hX j
          nlinarith [abs_nonneg (nth (vals x) j)]
      _ = n * X := by simp

theorem cheb_gradient_acc {n : ℕ} (hn : 3 ≤ n) (d : ℕ) (h1 : R.u < 1) (hu : ((d * (n / 2 + 6) : ℕ) : ℝ) * R.u < 1) :
    Accurate Rnd.val Rnd.val (fun x out => Cheb.gradientSlice (Rnd R) (T := Rnd R) ⟨n, n⟩ x out d)
      (fun x out => Cheb.gradientSlice ℝ (T := ℝ) ⟨n, n⟩ x out d) n n
      (((n:ℝ) ^ 2 / 2) ^ d) (R.γ (d * (n / 2 + 6)) * ((n:ℝ) ^ 2 / 2) ^ d) := by
  have g := R.γ_nonneg hu
  refine accurate_rnd (Cheb.gradient_fresh _ _ _) (cheb_gradient_lin hn d) (by positivity) (mul_nonneg g (by positivity))
    fun a out outR ha ho hoR => ?_
  obtain ⟨x, y, z, e1, e2, e3, l1, l2, l3, h, hz⟩ := gradient_near (R := R) (p := 0) hn d (by simpa using hu) h1 a (vals a)
    ((vals a).map (|·|)) ha (by rw [vals_length, ha]) (by rw [List.length_map, vals_length, ha])
    (fun i hi => by
      rw [nth_map _ _ _ (by rw [vals_length, ha]; exact hi)]
      exact NearV.self _)
  refine ⟨x, y, by show Cheb.gradientSlice _ _ _ _ _ = _; rw [Cheb.gradient_eq _ _ ha ho]; exact e1,
    by show Cheb.gradientSlice _ _ _ _ _ = _; rw [Cheb.gradient_eq _ _ (by rw [vals_length, ha]) hoR]; exact e2, fun X hX hb => ?_⟩
  have hz' : ∀ i < n, nth z i ≤ ((n:ℝ) ^ 2 / 2) ^ d * X := hz X fun i hi => by
    rw [nth_map _ _ _ (by rw [vals_length, ha]; exact hi)]
    exact hb.nth hX i
  refine ⟨⟨by rw [vals_length, l1, l2], fun i hi => ?_⟩, bounded_iff.mpr fun i hi => ?_⟩
  · rw [vals_length, l1] at hi
    have := (h i hi).err
    rw [Nat.zero_add] at this
    rw [mul_assoc]
    exact this.trans (mul_le_mul_of_nonneg_left (hz' i hi) g)
  · rw [l2] at hi
    exact (h i hi).le.trans (hz' i hi)

theorem zip_acc {D E : Type} [NormedAddCommGroup E] (v : D → E) (n : ℕ) :
    Accurate v v (fun x out => ok (zipSet id x out)) (fun x out => ok (zipSet id x out)) n n 1 0 := by
  refine ⟨id, id, fun x out hx ho => ⟨by show ok (zipSet id x out) = _; rw [zipSet_id_ok _ _ (hx.trans ho.symm)]; rfl, hx⟩,
    fun x out hx ho => ⟨by show ok (zipSet id x out) = _; rw [zipSet_id_ok _ _ (hx.trans ho.symm)]; rfl, hx⟩, fun x xR X δ hx hX hδ h h' => ⟨?_, ?_⟩⟩
  · rw [one_mul]; exact h
  · rw [zero_mul, zero_add, one_mul]; exact h'

/-! ### stencils -/

theorem compo_to_acc (k : CKind) (hk : k = .dirichlet ∨ k = .neumann ∨ k = .dirichletNeumann) {n : ℕ}
    (hn : k.minSolve ≤ n) (hs : SmallUnit R n (some k)) {b : Compo (Rnd R)} (hb : Compo.new k n = ok b) {bR : Compo ℝ}
    (hbR : Compo.new k n = ok bR) :
    Accurate Rnd.val Rnd.val (fun x out : List (Rnd R) => b.toOrthoSlice x out)
      (fun x out : List ℝ => bR.toOrthoSlice x out) (n - 2) n
      (toAmp R (some k)).gain (toAmp R (some k)).err := by
  have u0 := R.u_nonneg
  have key : ∀ {K : ℕ} {L : ℝ}, 0 ≤ L → (K:ℝ) * R.u < 1 → 4 ≤ n → (b.lenSpec = n - 2 ∧ bR.lenSpec = n - 2) →
      (∀ v : List (Rnd R), v.length = b.lenSpec → b.ortho = ⟨n, n⟩ ∧ bR.ortho = ⟨n, n⟩ ∧ v.length = n - 2 ∧
        ∀ (out : List (Rnd R)) (outR : List ℝ), out.length = n → outR.length = n →
        ∃ x y z, b.toOrthoSlice v out = ok x ∧ bR.toOrthoSlice (vals v) outR = ok y ∧ x.length = n ∧ y.length = n ∧
          z.length = n ∧ (∀ i < n, NearV R K (nth (vals x) i) (nth y i) (nth z i)) ∧
          ∀ V, Bounded V (vals v) → ∀ i < n, nth z i ≤ L * V) →
      Accurate Rnd.val Rnd.val (fun x out : List (Rnd R) => b.toOrthoSlice x out)
      (fun x out : List ℝ => bR.toOrthoSlice x out) (n - 2) n
        L (L * R.γ K) := by
    intro K L hL hK h4 hm h
    have g := R.γ_nonneg hK
    have hlin := compo_toOrtho_lin (R := ℝ) (T := ℝ) hk hbR
    have horR : bR.lenOrth = n := by
      have := (h (List.replicate (n - 2) 0) (by rw [hm.1]; simp)).2.1
      unfold Compo.lenOrth; rw [this]; rfl
    rw [hm.2, horR] at hlin
    refine accurate_rnd (Compo.toOrtho_fresh h4 hk hb) hlin hL (by positivity)
      fun v out outR hv ho hoR => ?_
    obtain ⟨-, -, -, h⟩ := h v (hv.trans hm.1.symm)
    obtain ⟨x, y, z, e, eR, l1, l2, l3, hN, hz⟩ := h out outR ho hoR
    refine ⟨x, y, e, eR, fun X hX hb => ⟨⟨by rw [vals_length, l1, l2], fun i hi => ?_⟩, bounded_iff.mpr fun i hi => ?_⟩⟩
    · rw [vals_length, l1] at hi
      refine (hN i hi).err.trans ((mul_le_mul_of_nonneg_left (hz X hb i hi) g).trans (le_of_eq (by ring)))
    · rw [l2] at hi
      exact (hN i hi).le.trans (hz X hb i hi)
  rcases hk with rfl | rfl | rfl
  · obtain ⟨hR, h5, -⟩ := hs
    have hn' : 5 ≤ n := hn
    exact key (K := 5) (L := 2) (by norm_num) (by push_cast; exact h5) (by omega) ⟨(Compo.dirichlet_form (by omega) hb).2.1, (Compo.dirichlet_form (by omega) hbR).2.1⟩
      (fun v hv => to_ortho_near hR (by push_cast; exact h5) _ (Or.inl rfl) hn b hb bR hbR v hv)
  · obtain ⟨hR, h5, -⟩ := hs
    have hn' : 5 ≤ n := hn
    exact key (K := 5) (L := 2) (by norm_num) (by push_cast; linarith) (by omega) ⟨(Compo.neumann_form (by omega) hb).2.1, (Compo.neumann_form (by omega) hbR).2.1⟩
      (fun v hv => to_ortho_near hR (by push_cast; linarith) _ (Or.inr rfl) hn b hb bR hbR v hv)
  · obtain ⟨h5, -⟩ := hs
    have hn' : 6 ≤ n := hn
    exact key (K := 16) (L := 3) (by norm_num) (by push_cast; linarith) (by omega) ⟨(Compo.mixed_form (by omega) hb).2.1, (Compo.mixed_form (by omega) hbR).2.1⟩
      (fun v hv => mixed_to_ortho (by push_cast; linarith) (by omega) hb hbR v hv)

/-- the exact projections are bounded -/
theorem compo_from_norm (k : CKind) (hk : k = .dirichlet ∨ k = .neumann ∨ k = .dirichletNeumann) {n : ℕ}
    (hn : k.minSolve ≤ n) {bR : Compo ℝ} (hbR : Compo.new k n = ok bR) {u out y : List ℝ} (hu : u.length = n)
    (ho : out.length = n - 2) (hy : bR.fromOrthoSlice u out = ok y) {U : ℝ} (hU : 0 ≤ U) (hb : Bounded U u) :
    Bounded ((fromAmp R n (some k)).gain * U) y := by
  rcases hk with rfl | rfl | rfl
  · have hn' : 5 ≤ n := hn
    obtain ⟨_, s, hst, hs⟩ := exact_dirichlet hn' hbR
    unfold Compo.fromOrthoSlice at hy; rw [hst] at hy
    obtain ⟨hl, hr⟩ := exact_rows hs (a := fun _ => 1) (fun _ _ => rfl) (by omega) (by omega) ho hy
    have := dirichlet_stable hn' (nth y) (2 * U) fun i hi => by
      rw [hr i hi, one_mul]
      have h1 := abs_le.mp (hb.nth hU i)
      have h2 := abs_le.mp (hb.nth hU (i + 2))
      rw [abs_le]; constructor <;> linarith
    refine bounded_iff.mpr fun i hi => (this i (by omega)).trans (le_of_eq ?_)
    show _ = ((n:ℝ) + 1) ^ 2 / 16 * U
    ring
  · have hn' : 5 ≤ n := hn
    obtain ⟨_, s, l, hst, hs, hl'⟩ := exact_neumann hn' hbR
    unfold Compo.fromOrthoSlice at hy; rw [hst] at hy
    obtain ⟨hl, hr⟩ := exact_rows hs (a := neuA) hl' (by omega) (by omega) ho hy
    have := neumann_stable hn' (nth y) (2 * U) fun i hi => by
      rw [hr i hi]
      have h1 := hb.nth hU i
      have h2 := hb.nth hU (i + 2)
      have h3 : |neuA i * nth u (i + 2)| ≤ 1 * U := by
        rw [abs_mul]
        refine mul_le_mul ?_ h2 (abs_nonneg _) zero_le_one
        rw [abs_of_nonneg (neuA_nonneg i)]
        exact neuA_le i
      refine (abs_sub _ _).trans ?_
      linarith
    refine bounded_iff.mpr fun i hi => (this i (by omega)).trans (le_of_eq ?_)
    show _ = ((n:ℝ) - 1) ^ 2 / 2 * U
    ring
  · have hn' : 6 ≤ n := hn
    obtain ⟨y', hy', hl, hS⟩ := mixed_exact_solve hn' hbR u out hu ho
    obtain rfl := Res.ok.inj (hy'.symm.trans hy)
    have hn0 : (0:ℝ) < n := by exact_mod_cast (show 0 < n by omega)
    have := margin_forward (n := n - 2) (A := mixA) (A' := mixA) (x := fun _ => 0) (y := nth y') (r' := fun _ => 0)
      (μ := 2 / (n:ℝ) ^ 3) (E := 0) (D := 2 * U) (X := 0) (by positivity) (fun i _ => by simp) (fun i hi => mixA_margin hi)
      (fun i _ => by simp) (fun i _ => by simp [matVec]) hS (fun i hi => by
        have h1 := hb.nth hU i
        have h2 := hb.nth hU (i + 1)
        have h3 := hb.nth hU (i + 2)
        have p1 := mixL1_pos i
        have p2 := mixL1_lt i
        rw [mixL2_eq]
        have e1 : |mixL1 i * nth u (i + 1)| ≤ mixL1 i * U := by
          rw [abs_mul, abs_of_pos p1]; exact mul_le_mul_of_nonneg_left h2 p1.le
        have e2 : |(mixL1 i - 1) * nth u (i + 2)| ≤ (1 - mixL1 i) * U := by
          rw [abs_mul, abs_sub_comm, abs_of_pos (by linarith : 0 < 1 - mixL1 i)]
          exact mul_le_mul_of_nonneg_left h3 (by linarith)
        rw [zero_sub, abs_neg]
        refine (abs_add_le _ _).trans ?_
        have := abs_add_le (nth u i) (mixL1 i * nth u (i + 1))
        linarith)
    refine bounded_iff.mpr fun i hi => ?_
    have hi' := this i (by omega)
    rw [zero_sub, abs_neg] at hi'
    refine hi'.trans (le_of_eq ?_)
    show _ = (n:ℝ) ^ 3 * U
    field_simp
    ring

theorem fromAmp_nonneg {n : ℕ} (k : Option CKind) (hk : RunsMul k) (hs : SmallUnit R n k) :
    0 ≤ (fromAmp R n k).gain ∧ 0 ≤ (fromAmp R n k).err := by
  have u0 := R.u_nonneg
  rcases k with _ | k
  · exact ⟨zero_le_one, le_rfl⟩
  rcases hk with rfl | rfl | rfl
  · obtain ⟨-, h5, -⟩ := hs
    have g5 := R.γ_nonneg (k := 5) (by push_cast; exact h5)
    have g2 := R.γ_nonneg (k := 2) (by push_cast; linarith)
    constructor <;> simp only [fromAmp] <;> positivity
  · obtain ⟨-, h5, -⟩ := hs
    have g5 := R.γ_nonneg (k := 13) (by push_cast; exact h5)
    have g2 := R.γ_nonneg (k := 5) (by push_cast; linarith)
    constructor <;> simp only [fromAmp] <;> positivity
  · obtain ⟨h5, -⟩ := hs
    have g5 := R.γ_nonneg (k := 36) (by push_cast; exact h5)
    have g2 := R.γ_nonneg (k := 16) (by push_cast; linarith)
    constructor <;> simp only [fromAmp] <;> positivity

theorem toAmp_nonneg {n : ℕ} (k : Option CKind) (hk : RunsMul k) (hs : SmallUnit R n k) :
    0 ≤ (toAmp R k).gain ∧ 0 ≤ (toAmp R k).err := by
  have u0 := R.u_nonneg
  rcases k with _ | k
  · exact ⟨zero_le_one, le_rfl⟩
  rcases hk with rfl | rfl | rfl
  · obtain ⟨-, h5, -⟩ := hs
    have g5 := R.γ_nonneg (k := 5) (by push_cast; exact h5)
    constructor <;> simp only [toAmp] <;> positivity
  · obtain ⟨-, h5, -⟩ := hs
    have g2 := R.γ_nonneg (k := 5) (by push_cast; linarith)
    constructor <;> simp only [toAmp] <;> positivity
  · obtain ⟨h5, -⟩ := hs
    have g2 := R.γ_nonneg (k := 16) (by push_cast; linarith)
    constructor <;> simp only [toAmp] <;> positivity

theorem compo_from_acc (k : CKind) (hk : k = .dirichlet ∨ k = .neumann ∨ k = .dirichletNeumann) {n : ℕ}
    (hn : k.minSolve ≤ n) (hs : SmallUnit R n (some k)) {b : Compo (Rnd R)} (hb : Compo.new k n = ok b) {bR : Compo ℝ}
    (hbR : Compo.new k n = ok bR) :
    Accurate Rnd.val Rnd.val (fun x out : List (Rnd R) => b.fromOrthoSlice x out)
      (fun x out : List ℝ => bR.fromOrthoSlice x out) n (n - 2)
      (fromAmp R n (some k)).gain (fromAmp R n (some k)).err := by
  have u0 := R.u_nonneg
  obtain ⟨p1, p2⟩ := fromAmp_nonneg (some k) hk hs
  have key : ∀ {L c e : ℝ}, (fromAmp R n (some k)).gain = L → (fromAmp R n (some k)).err = L * (c * L + e) → 4 ≤ n →
      (bR.lenSpec = n - 2 ∧ bR.lenOrth = n) →
      (∀ (u out : List (Rnd R)) (outR : List ℝ), u.length = n → out.length = n - 2 → outR.length = n - 2 →
        ∃ x y, b.fromOrthoSlice u out = ok x ∧ bR.fromOrthoSlice (vals u) outR = ok y ∧
          ∀ Y U, Bounded Y y → Bounded U (vals u) → Within (L * (c * Y + e * U)) (vals x) y) →
      Accurate Rnd.val Rnd.val (fun x out : List (Rnd R) => b.fromOrthoSlice x out)
        (fun x out : List ℝ => bR.fromOrthoSlice x out) n (n - 2)
        (fromAmp R n (some k)).gain (fromAmp R n (some k)).err := by
    intro L c e hL he h4 hm h
    have hlin := compo_fromOrtho_lin (R := ℝ) (T := ℝ) hbR hn
    rw [hm.1, hm.2] at hlin
    refine accurate_rnd (Compo.fromOrtho_fresh h4 hk hb) hlin p1 p2 fun u out outR hu ho hoR => ?_
    obtain ⟨x, y, ex, ey, hw⟩ := h u out outR hu ho hoR
    refine ⟨x, y, ex, ey, fun X hX hbd => ?_⟩
    have hY := compo_from_norm (R := R) k hk hn hbR (by rw [vals_length]; exact hu) hoR ey hX hbd
    refine ⟨?_, hY⟩
    have := hw _ _ hY hbd
    rw [he]
    refine ⟨this.1, fun i hi => (this.2 i hi).trans (le_of_eq ?_)⟩
    rw [hL]; ring
  rcases hk with rfl | rfl | rfl
  · obtain ⟨hR, h5, h8⟩ := hs
    have hn' : 5 ≤ n := hn
    obtain ⟨_, hm, hor, -⟩ := Compo.dirichlet_form (by omega) hb
    obtain ⟨_, hmR, horR, -⟩ := Compo.dirichlet_form (by omega) hbR
    have e1 : b.lenOrth = n := by unfold Compo.lenOrth; rw [hor]; rfl
    have e2 : bR.lenOrth = n := by unfold Compo.lenOrth; rw [horR]; rfl
    refine key rfl rfl (by omega) ⟨hmR, e2⟩ fun u out outR hu ho hoR => ?_
    obtain ⟨x, y, ex, ey, -, h⟩ := C73_dirichlet hR h5 hn' b hb bR hbR u out outR (hu.trans e1.symm) (ho.trans hm.symm) (hoR.trans hmR.symm)
    exact ⟨x, y, ex, ey, h h8⟩
  · obtain ⟨hR, h5, h8⟩ := hs
    have hn' : 5 ≤ n := hn
    obtain ⟨_, hm, hor, -⟩ := Compo.neumann_form (by omega) hb
    obtain ⟨_, hmR, horR, -⟩ := Compo.neumann_form (by omega) hbR
    have e1 : b.lenOrth = n := by unfold Compo.lenOrth; rw [hor]; rfl
    have e2 : bR.lenOrth = n := by unfold Compo.lenOrth; rw [horR]; rfl
    have g8 : ((n:ℝ) - 1) ^ 2 * R.γ 8 ≤ 1 := by
      have h1 := R.γ_mono (j := 8) (k := 13) (by norm_num) (by push_cast; exact h5)
      have h2 := mul_le_mul_of_nonneg_left h1 (sq_nonneg ((n:ℝ) - 1))
      have h3 := R.γ_nonneg (k := 13) (by push_cast; exact h5)
      nlinarith [mul_nonneg (sq_nonneg ((n:ℝ) - 1)) h3]
    refine key rfl rfl (by omega) ⟨hmR, e2⟩ fun u out outR hu ho hoR => ?_
    obtain ⟨x, y, ex, ey, -, h⟩ := C73_neumann hR h5 hn' g8 b hb bR hbR u out outR (hu.trans e1.symm) (ho.trans hm.symm) (hoR.trans hmR.symm)
    exact ⟨x, y, ex, ey, h h8⟩
  · obtain ⟨h5, h8⟩ := hs
    have hn' : 6 ≤ n := hn
    obtain ⟨_, hm, hor, -⟩ := Compo.mixed_form (by omega) hb
    obtain ⟨_, hmR, horR, -⟩ := Compo.mixed_form (by omega) hbR
    have e1 : b.lenOrth = n := by unfold Compo.lenOrth; rw [hor]; rfl
    have e2 : bR.lenOrth = n := by unfold Compo.lenOrth; rw [horR]; rfl
    refine key rfl rfl (by omega) ⟨hmR, e2⟩ fun u out outR hu ho hoR => ?_
    obtain ⟨x, y, ex, ey, -, h⟩ := C94_from_ortho h5 hn' (by linarith) b hb bR hbR u out outR (hu.trans e1.symm) (ho.trans hm.symm) (hoR.trans hmR.symm)
    exact ⟨x, y, ex, ey, h h8⟩

end Verif.Props
