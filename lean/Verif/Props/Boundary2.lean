/-
Property C98 in two dimensions.
-/
import Verif.Proof.Chain2
import Verif.Props.Boundary
import Verif.Props.Accuracy2
import Verif.Proof.RndCheb

namespace Verif.Props
open Res Spec Finset Polynomial

/-- The derivatives of a combination of the functions of a base. -/
private theorem stencil_sum {T : Type} [AddCommGroup T] [Module ℝ T] {k : Option CKind} {n : ℕ} {b : BaseR2r}
    (hb : newR2r k n = ok b) {S : Mat ℝ} (hS : (b.toBase T).stencil = ok S) (v : List ℝ)
    (hv : v.length = (b.toBase T).lenSpec) (d : ℕ) (y : ℝ) :
    ∑ i ∈ range (b.toBase T).lenSpec, iteratedDeriv d (stencilFn S i) y * nth v i
      = chebDeriv ℝ d (mulVec S v) y := by
  obtain ⟨S', hS', hr, hcs⟩ := r2r_stencil (T := T) hb
  obtain rfl : S = S' := by rw [hS] at hS'; exact Res.ok.inj hS'
  unfold chebDeriv
  rw [mulVec_length, ← hv]
  have := sum_mulVec S v (by rw [hv, hcs]) (fun k => iteratedDeriv d (chebFn k) y)
  simp only [iteratedDeriv_chebFn, smul_eq_mul] at this ⊢
  rw [this]
  refine Finset.sum_congr rfl (fun i _ => ?_)
  rw [iteratedDeriv_stencilFn]
  simp only [iteratedDeriv_chebFn]

private theorem cheb_stencil_sum {T : Type} [AddCommGroup T] [Module ℝ T] {n : ℕ} {o : BaseR2r}
    (ho : chebyshev n = ok o) {S : Mat ℝ} (hS : (o.toBase T).stencil = ok S) (v : List ℝ)
    (hv : v.length = n) (d : ℕ) (y : ℝ) :
    ∑ i ∈ range (o.toBase T).lenSpec, iteratedDeriv d (stencilFn S i) y * nth v i = chebDeriv ℝ d v y := by
  have ho' : newR2r none n = ok o := ho
  obtain ⟨hn, rfl⟩ := chebyshev_inv ho
  obtain rfl : Mat.eye n = S := by
    have : (ok (Mat.eye n) : Res (Mat ℝ)) = ok S := hS
    exact Res.ok.inj this
  rw [stencil_sum ho' hS v hv d y, mulVec_eye v n hv (Mat.eye n) rfl rfl (fun _ _ _ _ => rfl)]

/-- The derivative of the interpolant, in terms of the samples: real-to-complex Fourier base. -/
private theorem r2c_norm {n : ℕ} {bx : Base ℝ ℂ ℂ} (hbx : IsR2c n bx) {φ : List ℝ → List ℂ}
    (hφ : Computes bx.forwardSlice bx.lenPhys bx.lenSpec φ) (d : ℕ) (x : ℝ) (u : List ℝ) (hu : u.length = n)
    (M : ℝ) (hM : ∀ p < n, |nth u p| ≤ M) :
    |∑ i ∈ range bx.lenSpec, ((r2cLin n i x).comp ((Complex.I * i) ^ d • LinearMap.id)) (nth (φ u) i)|
      ≤ (n + 2) * ((n : ℝ) / 2) ^ d * M := by
  obtain ⟨hn, b0, hb, rfl⟩ := hbx
  obtain rfl := r2c_inv hb
  have hn' : (0 : ℝ) < n := by exact_mod_cast hn
  have hM0 : 0 ≤ M := (abs_nonneg _).trans (hM 0 hn)
  have e : φ u = rfftFwd u := by
    have h1 := (hφ u (List.replicate (n / 2 + 1) 0) hu (List.length_replicate ..)).1
    exact Res.ok.inj (h1.symm.trans (r2c_forward_eq n u _ hu (List.length_replicate ..)))
  have hX : ∀ k < n / 2 + 1, ‖nth (rfftFwd u) k‖ ≤ n * M := by
    intro k hk
    unfold rfftFwd
    rw [nth_map_range _ _ _ (by rw [hu]; exact hk), hu, list_sum_range]
    refine (norm_sum_le _ _).trans ((Finset.sum_le_card_nsmul _ _ M (fun j hj => ?_)).trans (by simp))
    rw [norm_mul, Complex.norm_real]
    refine (mul_le_of_le_one_right (norm_nonneg _) ?_).trans (hM j (mem_range.mp hj))
    unfold twiddle
    rw [Complex.norm_exp]
    simp
  refine (abs_sum_le_sum_abs _ _).trans ?_
  show ∑ i ∈ range (n / 2 + 1), _ ≤ _
  have hterm : ∀ i ∈ range (n / 2 + 1),
      |((r2cLin n i x).comp ((Complex.I * i) ^ d • LinearMap.id)) (nth (φ u) i)| ≤ 2 * ((n : ℝ) / 2) ^ d * M := by
    intro i hi
    have hi' := mem_range.mp hi
    have hi2 : (i : ℝ) ≤ n / 2 := by
      rw [le_div_iff₀ (by norm_num)]
      exact_mod_cast (by omega : i * 2 ≤ n)
    rw [e]
    show |r2cTerm n i x ((Complex.I * i) ^ d * nth (rfftFwd u) i)| ≤ _
    unfold r2cTerm
    rw [abs_mul, abs_mul, abs_of_nonneg (show (0 : ℝ) ≤ 1 / n by positivity)]
    have h2 : |(if i = 0 ∨ 2 * i = n then (1 : ℝ) else 2)| ≤ 2 := by split <;> norm_num
    have h3 : |((Complex.I * i) ^ d * nth (rfftFwd u) i * expFn i x).re| ≤ ((n : ℝ) / 2) ^ d * (n * M) := by
      refine (Complex.abs_re_le_norm _).trans ?_
      rw [norm_mul, norm_mul, norm_pow, norm_mul, Complex.norm_I, one_mul, Complex.norm_natCast]
      have h4 : ‖(expFn i x : ℂ)‖ = 1 := by
        unfold expFn
        rw [Complex.norm_exp]
        simp
      rw [h4, mul_one]
      exact mul_le_mul (pow_le_pow_left₀ (Nat.cast_nonneg _) hi2 _) (hX i hi') (norm_nonneg _) (by positivity)
    calc _ ≤ 1 / (n : ℝ) * (2 * (((n : ℝ) / 2) ^ d * (n * M))) :=
          mul_le_mul_of_nonneg_left (mul_le_mul h2 h3 (abs_nonneg _) (by norm_num)) (by positivity)
      _ = _ := by field_simp
  refine (Finset.sum_le_card_nsmul _ _ _ hterm).trans ?_
  rw [card_range, nsmul_eq_mul]
  have hc : ((n / 2 + 1 : ℕ) : ℝ) * 2 ≤ n + 2 := by exact_mod_cast (by omega : (n / 2 + 1) * 2 ≤ n + 2)
  calc _ = ((n / 2 + 1 : ℕ) : ℝ) * 2 * (((n : ℝ) / 2) ^ d * M) := by ring
    _ ≤ (n + 2) * (((n : ℝ) / 2) ^ d * M) := mul_le_mul_of_nonneg_right hc (by positivity)
    _ = _ := by ring

/-- A double series on a line of the grid. -/
private theorem col_series {g w : ℕ × ℕ → ℝ} {D : ℕ} (hg : ∀ P, |g P| ≤ w P) (hw : Summable w)
    (hW : Summable (fun P : ℕ × ℕ => w P * (P.2 : ℝ) ^ (2 * D))) {F : ℝ → ℝ}
    (hF : ∀ y ∈ Set.Icc (-1 : ℝ) 1, HasSum (fun P : ℕ × ℕ => g P * (Chebyshev.T ℝ P.2).eval y) (F y)) :
    ∃ a : ℕ → ℝ, Summable (fun k : ℕ => |a k| * (k : ℝ) ^ (2 * D)) ∧
      (∀ y ∈ Set.Icc (-1 : ℝ) 1, HasSum (fun k : ℕ => a k * (Chebyshev.T ℝ k).eval y) (F y)) ∧
      ∀ n, ∀ e ≤ D, chebTail a n e ≤ ∑' P : {P : ℕ × ℕ // ¬ P.2 < n}, w P * (P.1.2 : ℝ) ^ (2 * e) := by
  classical
  have hw0 : ∀ P, 0 ≤ w P := fun P => (abs_nonneg _).trans (hg P)
  have hwe : ∀ e ≤ D, Summable (fun P : ℕ × ℕ => w P * (P.2 : ℝ) ^ (2 * e)) := fun e he =>
    Summable.of_nonneg_of_le (fun P => mul_nonneg (hw0 P) (by positivity)) (fun P => by
      rcases Nat.eq_zero_or_pos P.2 with h | h
      · rw [h]
        rcases Nat.eq_zero_or_pos e with h2 | h2
        · subst h2
          show w P * ((0 : ℕ) : ℝ) ^ 0 ≤ w P + w P * ((0 : ℕ) : ℝ) ^ (2 * D)
          rw [pow_zero, mul_one]
          exact le_add_of_nonneg_right (mul_nonneg (hw0 P) (by positivity))
        · show w P * ((0 : ℕ) : ℝ) ^ (2 * e) ≤ w P + w P * ((0 : ℕ) : ℝ) ^ (2 * D)
          rw [Nat.cast_zero, zero_pow (by omega), mul_zero]
          exact add_nonneg (hw0 P) (mul_nonneg (hw0 P) (by positivity))
      · refine le_add_of_nonneg_of_le (hw0 P) (mul_le_mul_of_nonneg_left ?_ (hw0 P))
        exact pow_le_pow_right₀ (by exact_mod_cast h) (by omega)) (hw.add hW)
  have hb : ∀ K, |∑' J, g (J, K)| ≤ ∑' J, w (J, K) := fun K => by
    rw [← Real.norm_eq_abs]
    exact tsum_of_norm_bounded (summable_col hw K).hasSum (fun J => hg (J, K))
  have hcol : ∀ e ≤ D, Summable (fun K : ℕ => (∑' J, w (J, K)) * (K : ℝ) ^ (2 * e)) := fun e he => by
    refine (hasSum_cols (hwe e he).hasSum).summable.congr (fun K => ?_)
    exact tsum_mul_right (f := fun J : ℕ => w (J, K)) (a := (K : ℝ) ^ (2 * e))
  refine ⟨fun K => ∑' J, g (J, K), ?_, fun y hy => ?_, fun n e he => ?_⟩
  · refine Summable.of_nonneg_of_le (fun K => by positivity) (fun K => ?_) (hcol D le_rfl)
    exact mul_le_mul_of_nonneg_right (hb K) (by positivity)
  · refine (hasSum_cols (hF y hy)).congr_fun (fun K => ?_)
    exact (tsum_mul_right (f := fun J : ℕ => g (J, K)) (a := (Chebyshev.T ℝ K).eval y)).symm
  · rw [show (∑' P : {P : ℕ × ℕ // ¬ P.2 < n}, w P * (P.1.2 : ℝ) ^ (2 * e))
        = ∑' P : ({P : ℕ × ℕ | ¬ P.2 < n} : Set (ℕ × ℕ)), (fun P : ℕ × ℕ => w P * (P.2 : ℝ) ^ (2 * e)) P from rfl,
      tsum_subtype {P : ℕ × ℕ | ¬ P.2 < n} (fun P : ℕ × ℕ => w P * (P.2 : ℝ) ^ (2 * e))]
    have h1 := hasSum_cols ((hwe e he).indicator {P : ℕ × ℕ | ¬ P.2 < n}).hasSum
    rw [← h1.tsum_eq, ← h1.summable.sum_add_tsum_nat_add n, Finset.sum_eq_zero (fun K hK => ?_), zero_add]
    · refine Summable.tsum_le_tsum (fun k => ?_) ?_ ((summable_nat_add_iff n).mpr h1.summable)
      · have : ∀ J : ℕ, Set.indicator {P : ℕ × ℕ | ¬ P.2 < n} (fun P : ℕ × ℕ => w P * (P.2 : ℝ) ^ (2 * e)) (J, k + n)
            = w (J, k + n) * ((k + n : ℕ) : ℝ) ^ (2 * e) := fun J =>
          Set.indicator_of_mem (show ¬ k + n < n by omega) _
        simp only [this]
        rw [tsum_mul_right]
        exact mul_le_mul_of_nonneg_right (hb _) (by positivity)
      · refine Summable.of_nonneg_of_le (fun K => by positivity) (fun K => ?_)
          ((summable_nat_add_iff n).mpr (hcol e he))
        exact mul_le_mul_of_nonneg_right (hb _) (by positivity)
    · have : ∀ J : ℕ, Set.indicator {P : ℕ × ℕ | ¬ P.2 < n} (fun P : ℕ × ℕ => w P * (P.2 : ℝ) ^ (2 * e)) (J, K) = 0 :=
        fun J => Set.indicator_of_notMem (by simpa using mem_range.mp hK) _
      simp only [this, tsum_zero]

/-- One line of the grid: the derivative through the composite base and through the Chebyshev base. -/
private theorem axis_close {T : Type} [AddCommGroup T] [Module ℝ T] {k : CKind} {n : ℕ} {b o : BaseR2r}
    (hb : newR2r (some k) n = ok b) (hn : k.minSolve ≤ n) (ho : chebyshev n = ok o) {S So : Mat ℝ}
    (hS : (b.toBase T).stencil = ok S) (hSo : (o.toBase T).stencil = ok So) {φ φo : List ℝ → List ℝ}
    (hφ : Computes (b.toBase T).forwardSlice (b.toBase T).lenPhys (b.toBase T).lenSpec φ)
    (hφo : Computes (o.toBase T).forwardSlice (o.toBase T).lenPhys (o.toBase T).lenSpec φo)
    {x : List ℝ} (hx : (o.toBase T).coords = ok x)
    {D : ℕ} (hD : conditionOrder k ≤ D) {a : ℕ → ℝ} (hs : Summable (fun i : ℕ => |a i| * (i : ℝ) ^ (2 * D)))
    {f : ℝ → ℝ} (hf : ∀ x ∈ Set.Icc (-1 : ℝ) 1, HasSum (fun i : ℕ => a i * (Chebyshev.T ℝ i).eval x) (f x))
    (hbc : FunctionBC k f) (d : ℕ) {y : ℝ} (hy : y ∈ Set.Icc (-1 : ℝ) 1) :
    |∑ i ∈ range (b.toBase T).lenSpec, iteratedDeriv d (stencilFn S i) y * nth (φ (x.map f)) i
      - ∑ i ∈ range (o.toBase T).lenSpec, iteratedDeriv d (stencilFn So i) y * nth (φo (x.map f)) i|
      ≤ 6 * √n * (n : ℝ) ^ (2 * d) * chebTail a n (conditionOrder k) := by
  have hb' := hb
  have ho' := ho
  obtain ⟨c, hc, rfl⟩ := composite_inv hb
  obtain ⟨hn2, rfl⟩ := chebyshev_inv ho
  have hw := Compo.wf_of_new hc
  have ho2 : c.lenOrth = n := by simp [Compo.lenOrth, Cheb.lenOrth, hw.ortho]
  obtain ⟨x', u, v, S', hx1, hx2, hu, hul, hv, hvl, hS', -, h⟩ := forward_close k n c hc hn D hD a hs f hf hbc
    (List.replicate c.lenSpec 0) (List.replicate c.lenOrth 0) (by simp) (by simp)
  obtain rfl : x = x' := Res.ok.inj (hx.symm.trans hx2)
  obtain rfl : S = S' := Res.ok.inj (hS.symm.trans hS')
  have hxl : (x.map f).length = n := by
    obtain ⟨x2, hx3, hl, -⟩ := C01_coords n ⟨n, n⟩ (cheb_new_ok hn2)
    obtain rfl : x = x2 := Res.ok.inj (hx2.symm.trans hx3)
    simpa using hl
  have e1 : φ (x.map f) = v := Res.ok.inj
    ((hφ (x.map f) (List.replicate c.lenSpec 0) (hxl.trans hw.n_eq.symm) (List.length_replicate ..)).1.symm.trans hv)
  have e2 : φo (x.map f) = u := Res.ok.inj
    ((hφo (x.map f) (List.replicate c.lenOrth 0) hxl (by rw [List.length_replicate, ho2]; rfl)).1.symm.trans hu)
  rw [e1, e2, stencil_sum hb' hS v hvl d y, cheb_stencil_sum ho' hSo u hul d y]
  exact h d y hy

/-- C98 for BaseR2c×BaseR2r (the space of the Navier-Stokes examples): let
`f(x,y) = ∑ (A(J,K) cos(J x) + B(J,K) sin(J x)) T_K(y)` satisfy, for all `x`, the boundary conditions of the
second base at `y = ±1`.  `forward`, `gradient` with orders `d0, d1` and optional scales, and `backward`
of the space with the Chebyshev base return `∂ₓ^d0 ∂ᵧ^d1 f` on the grid, divided by the scales, up to
twice the tail of `∑ (|A(J,K)| + |B(J,K)|) J^d0 K^(2 d1)` over the pairs that are not resolved, `2 J ≥ n0`
or `K ≥ n1`, plus the tail `K ≥ n1` with the order of the boundary conditions, amplified by
`6 (n0 + 2) (n0 / 2)^d0 √n1 n1^(2 d1)`. -/
theorem C98_space2_r2c_r2r (n0 : ℕ) (bx : Base ℝ ℂ ℂ) (hbx : IsR2c n0 bx) (k : CKind)
    (hk : k = .dirichlet ∨ k = .neumann ∨ k = .dirichletNeumann) (n1 : ℕ) (b1 o1 : BaseR2r)
    (hb1 : newR2r (some k) n1 = ok b1) (hn : k.minSolve ≤ n1) (ho1 : chebyshev n1 = ok o1)
    (d0 d1 : ℕ) (A B : ℕ × ℕ → ℝ)
    (hs : Summable (fun P : ℕ × ℕ => (|A P| + |B P|) * ((P.1 : ℝ) + 1) ^ d0
      * ((P.2 : ℝ) + 1) ^ (2 * max d1 (conditionOrder k))))
    (f : ℝ → ℝ → ℝ) (hf : ∀ x, ∀ y ∈ Set.Icc (-1 : ℝ) 1, HasSum (fun P : ℕ × ℕ =>
      (A P * Real.cos (P.1 * x) + B P * Real.sin (P.1 * x)) * (Chebyshev.T ℝ P.2).eval y) (f x y))
    (hbc : ∀ x, FunctionBC k (f x))
    (scale : Option (ℝ × ℝ)) (hsc : scale ≠ none → d0 < 2 ^ 31 ∧ d1 < 2 ^ 31)
    (hne : scale2 d0 d1 scale ≠ 0) :
    let sp : Space2 ℝ ℝ ℂ ℂ := ⟨bx, b1.toBase ℂ⟩
    let so : Space2 ℝ ℝ ℂ ℂ := ⟨bx, o1.toBase ℂ⟩
    ∃ x y, sp.coords = ok [x, y] ∧ so.coords = ok [x, y] ∧ ∀ X : Arr ℝ, Good X [n0, n1] →
      (∀ p < n0, ∀ q < n1, at_ X [p, q] = f (nth x p) (nth y q)) →
      ∃ v g w, sp.forward X = ok v ∧ sp.gradient v d0 d1 scale = ok g ∧ so.backward g = ok w ∧
        Good w [n0, n1] ∧ ∀ p < n0, ∀ q < n1,
          |at_ w [p, q] - (scale2 d0 d1 scale)⁻¹ * iteratedDeriv d0
            (fun x => iteratedDerivWithin d1 (f x) (Set.Icc (-1) 1) (nth y q)) (nth x p)|
          ≤ |(scale2 d0 d1 scale)⁻¹| * (2 * (∑' P : {P : ℕ × ℕ // ¬(2 * P.1 < n0 ∧ P.2 < n1)},
                (|A P| + |B P|) * (P.1.1 : ℝ) ^ d0 * (P.1.2 : ℝ) ^ (2 * d1))
              + (n0 + 2) * ((n0 : ℝ) / 2) ^ d0 * (6 * √n1 * (n1 : ℝ) ^ (2 * d1) *
                ∑' P : {P : ℕ × ℕ // ¬ P.2 < n1}, (|A P| + |B P|) * (P.1.2 : ℝ) ^ (2 * conditionOrder k))) := by
  intro sp so
  set D := max d1 (conditionOrder k) with hDdef
  have hn4 : 3 ≤ n1 := le_trans (by cases k <;> decide) hn
  have ho1' : newR2r none n1 = ok o1 := ho1
  -- weights
  have hW : ∀ {e0 e1 : ℕ}, e0 ≤ d0 → e1 ≤ 2 * D → Summable (fun P : ℕ × ℕ => (|A P| + |B P|) * ((P.1 : ℝ) + 1) ^ e0
      * ((P.2 : ℝ) + 1) ^ e1) := fun h0 h1 => by
    refine Summable.of_nonneg_of_le (fun P => by positivity) (fun P => ?_) hs
    refine mul_le_mul (mul_le_mul_of_nonneg_left (pow_le_pow_right₀ ?_ h0) (by positivity))
      (pow_le_pow_right₀ ?_ h1) (by positivity) (by positivity)
    · linarith [Nat.cast_nonneg (α := ℝ) P.1]
    · linarith [Nat.cast_nonneg (α := ℝ) P.2]
  have hw0 : Summable (fun P => |A P| + |B P|) := by simpa using hW (Nat.zero_le _) (Nat.zero_le _)
  have hwD : Summable (fun P : ℕ × ℕ => (|A P| + |B P|) * (P.2 : ℝ) ^ (2 * D)) := by
    refine Summable.of_nonneg_of_le (fun P => by positivity) (fun P => ?_) (hW (Nat.zero_le _) le_rfl)
    rw [pow_zero, mul_one]
    exact mul_le_mul_of_nonneg_left (pow_le_pow_left₀ (Nat.cast_nonneg _) (by linarith) _) (by positivity)
  obtain ⟨x, y, hxy, -, hmain⟩ := C88_space2_r2c_r2r n0 bx hbx none n1 o1 o1 ho1 trivial hn4 ho1 d0 d1 A B
    (hW le_rfl (Nat.mul_le_mul_left 2 (le_max_left _ _))) f hf (Or.inl rfl) scale hsc hne
  obtain ⟨S, hS, -⟩ := r2r_stencil (T := ℂ) hb1
  obtain ⟨So, hSo, -⟩ := r2r_stencil (T := ℂ) ho1'
  obtain ⟨ec, lp1, lo1, ls1, lt1⟩ := r2r_coords (T := ℂ) hb1 (o := o1) ho1
  obtain ⟨-, -, -, -, lt1'⟩ := r2r_coords (T := ℂ) ho1' (o := o1) ho1
  have hlen : bx.lenSpec = n0 / 2 + 1 ∧ bx.lenOrth = n0 / 2 + 1 ∧ bx.lenPhys = n0 := by
    obtain ⟨hn, b0, hb, rfl⟩ := hbx
    obtain rfl := r2c_inv hb
    exact ⟨rfl, rfl, rfl⟩
  obtain ⟨ls0, lt0, lp0⟩ := hlen
  have hcs : sp.coords = so.coords := by
    show (do let c0 ← bx.coords
             let c1 ← (b1.toBase ℂ).coords
             pure [c0, c1]) = (do let c0 ← bx.coords
                                  let c1 ← (o1.toBase ℂ).coords
                                  pure [c0, c1])
    rw [ec]
  obtain ⟨hyo, hyl, hyI⟩ : (o1.toBase ℂ).coords = ok y ∧ y.length = n1 ∧
      ∀ q < n1, nth y q ∈ Set.Icc (-1 : ℝ) 1 := by
    obtain ⟨y', hy', hl, hyj⟩ : ∃ y', (o1.toBase ℂ).coords = ok y' ∧ y'.length = n1 ∧
        ∀ q < n1, nth y' q = chebPoint n1 q := by
      obtain ⟨hn, rfl⟩ := chebyshev_inv ho1
      obtain ⟨x, hx, hl, hxj, -⟩ := C01_coords n1 _ (cheb_new_ok hn)
      exact ⟨x, hx, hl, hxj⟩
    have h : so.coords = (do let c0 ← bx.coords
                             let c1 ← (o1.toBase ℂ).coords
                             pure [c0, c1]) := rfl
    rw [hxy, hy'] at h
    obtain ⟨x', hx'⟩ : ∃ x', bx.coords = ok x' := by
      obtain ⟨hn, b0, hb, rfl⟩ := hbx
      obtain rfl := r2c_inv hb
      obtain ⟨x, h1, -⟩ := C23_r2c_coords n0 hn ⟨n0, n0 / 2 + 1⟩ rfl
      exact ⟨x, h1⟩
    rw [hx'] at h
    obtain ⟨-, h⟩ := List.cons.inj (Res.ok.inj h)
    obtain ⟨rfl, -⟩ := List.cons.inj h
    exact ⟨hy', hl, fun q hq => by rw [hyj q hq]; exact chebPoint_mem _ _⟩
  refine ⟨x, y, hcs.trans hxy, hxy, fun X hX hXs => ?_⟩
  obtain ⟨v', g', w', hv', hg', hw', hwG', hwe'⟩ := hmain X hX hXs
  obtain ⟨φ0, c0, L0⟩ := hbx.fwdLin
  obtain ⟨φ1, c1, L1⟩ := r2r_forward_lin (T := ℂ) hb1 hn
  obtain ⟨φo, co, Lo⟩ := r2r_forward_lin (T := ℂ) ho1' trivial
  choose m0 hm0 using fun x => linear_functional (φ := φ0) (n := n0) (N := bx.lenSpec) (fun u hu => c0.len u (hu.trans lp0.symm)) (lp0 ▸ L0)
    (fun i => (r2cLin n0 i x).comp ((Complex.I * i) ^ d0 • LinearMap.id))
  choose m1 hm1 using fun y => linear_functional (φ := φ1) (n := n1) (fun u hu => c1.len u (hu.trans lp1.symm)) (lp1 ▸ L1)
    (fun i => mulLin (iteratedDeriv d1 (stencilFn S i) y))
  choose mo hmo using fun y => linear_functional (φ := φo) (n := n1) (fun u hu => co.len u (hu.trans lo1.symm)) (lo1 ▸ Lo)
    (fun i => mulLin (iteratedDeriv d1 (stencilFn So i) y))
  have hsp : Good X sp.shapePhysical := by
    show Good X [bx.lenPhys, (b1.toBase ℂ).lenPhys]
    rw [lp0, lp1]; exact hX
  have hso : Good X so.shapePhysical := by
    show Good X [bx.lenPhys, (o1.toBase ℂ).lenPhys]
    rw [lp0, lo1]; exact hX
  obtain ⟨x2, y2, v, g, w, hxy2, hv, hg, hw, hwG, hwe⟩ := chain2 sp so (d0 := d0) (d1 := d1)
    (ℓ := fun k x => r2cLin n0 k x)
    (μ' := fun i x => (r2cLin n0 i x).comp ((Complex.I * i) ^ d0 • LinearMap.id))
    (e := chebFn) (ψ := stencilFn S) (ls0.trans lt0.symm) (ls1.trans lt1.symm)
    (r2c_evaluates hbx) (r2c_grad_functional hbx d0) (cheb_eval (n := n1) ho1)
    (r2r_differentiates hb1 (by simpa [RunsGrad, RunsMul] using hk) d1 hS) c0 c1 (m0 := m0) (m1 := m1)
    (fun x u hu => (hm0 x u (hu.trans lp0)).trans (by rw [← lp0]))
    (fun y u hu => (hm1 y u (hu.trans lp1)).trans (by rw [← lp1])) hsp hsc hne
  obtain ⟨x3, y3, v3, g3, w3, hxy3, hv3, hg3, hw3, -, hwe3⟩ := chain2 so so (d0 := d0) (d1 := d1)
    (ℓ := fun k x => r2cLin n0 k x)
    (μ' := fun i x => (r2cLin n0 i x).comp ((Complex.I * i) ^ d0 • LinearMap.id))
    (e := chebFn) (ψ := stencilFn So) (ls0.trans lt0.symm) (ls1.trans lt1'.symm)
    (r2c_evaluates hbx) (r2c_grad_functional hbx d0) (cheb_eval (n := n1) ho1)
    (r2r_differentiates ho1' hn4 d1 hSo) c0 co (m0 := m0) (m1 := mo)
    (fun x u hu => (hm0 x u (hu.trans lp0)).trans (by rw [← lp0]))
    (fun y u hu => (hmo y u (hu.trans lo1)).trans (by rw [← lo1])) hso hsc hne
  obtain ⟨rfl, h⟩ := List.cons.inj (Res.ok.inj (hxy2.symm.trans hxy))
  obtain ⟨rfl, -⟩ := List.cons.inj h
  obtain ⟨rfl, h⟩ := List.cons.inj (Res.ok.inj (hxy3.symm.trans hxy))
  obtain ⟨rfl, -⟩ := List.cons.inj h
  obtain rfl := Res.ok.inj (hv3.symm.trans hv')
  obtain rfl := Res.ok.inj (hg3.symm.trans hg')
  obtain rfl := Res.ok.inj (hw3.symm.trans hw')
  refine ⟨v, g, w, hv, hg, hw, ?_, fun p hp q hq => ?_⟩
  · have : so.shapePhysical = [n0, n1] := by
      show [bx.lenPhys, (o1.toBase ℂ).lenPhys] = _
      rw [lp0, lo1]
    exact this ▸ hwG
  have h2 := hwe' p hp q hq
  suffices h1 : |at_ w [p, q] - at_ w3 [p, q]| ≤ |(scale2 d0 d1 scale)⁻¹| * ((n0 + 2) * ((n0 : ℝ) / 2) ^ d0 *
      (6 * √n1 * (n1 : ℝ) ^ (2 * d1) *
        ∑' P : {P : ℕ × ℕ // ¬ P.2 < n1}, (|A P| + |B P|) * (P.1.2 : ℝ) ^ (2 * conditionOrder k))) from
    (abs_sub_le _ (at_ w3 [p, q]) _).trans ((add_le_add h1 h2).trans (le_of_eq (by ring)))
  rw [hwe p (lt_of_lt_of_eq hp lp0.symm) q (lt_of_lt_of_eq hq lo1.symm),
    hwe3 p (lt_of_lt_of_eq hp lp0.symm) q (lt_of_lt_of_eq hq lo1.symm), ← mul_sub, abs_mul]
  refine mul_le_mul_of_nonneg_left ?_ (abs_nonneg _)
  show |∑ p' ∈ range bx.lenPhys, m0 (nth x3 p) p' * ∑ q' ∈ range (b1.toBase ℂ).lenPhys, m1 (nth y3 q) q' * at_ X [p', q']
    - ∑ p' ∈ range bx.lenPhys, m0 (nth x3 p) p' * ∑ q' ∈ range (o1.toBase ℂ).lenPhys, mo (nth y3 q) q' * at_ X [p', q']| ≤ _
  rw [lp0, lp1, lo1]
  obtain ⟨Λ1, hΛ1⟩ : ∃ Λ1 : ℝ, ∀ (u : ℕ → ℝ) (M : ℝ), (∀ q < n1, |u q| ≤ M) →
      |∑ r ∈ range n1, mo (nth y3 q) r * u r| ≤ Λ1 * M :=
    ⟨∑ r ∈ range n1, |mo (nth y3 q) r|, fun u M hM => (abs_sum_le_sum_abs _ _).trans (by
      rw [Finset.sum_mul]
      exact Finset.sum_le_sum (fun r hr => by
        rw [abs_mul]; exact mul_le_mul_of_nonneg_left (hM r (mem_range.mp hr)) (abs_nonneg _)))⟩
  refine (product_close (X := fun p q => at_ X [p, q]) (Λ0 := (n0 + 2) * ((n0 : ℝ) / 2) ^ d0) (Λ1 := Λ1) (δ0 := 0)
    (δ1 := 6 * √n1 * (n1 : ℝ) ^ (2 * d1) *
      ∑' P : {P : ℕ × ℕ // ¬ P.2 < n1}, (|A P| + |B P|) * (P.1.2 : ℝ) ^ (2 * conditionOrder k)) (fun u M hM => ?_) hΛ1 (fun p' hp' => ?_)
    (fun q' _ => by rw [sub_self, abs_zero])).trans (le_of_eq (by ring))
  · have h3 := hm0 (nth x3 p) ((List.range n0).map u) (by simp)
    have h4 := r2c_norm hbx c0 d0 (nth x3 p) ((List.range n0).map u) (by simp) M
      (fun p hp => by rw [nth_map_range _ _ _ hp]; exact hM p hp)
    rw [h3] at h4
    refine le_trans (le_of_eq ?_) h4
    congr 1
    exact Finset.sum_congr rfl (fun p hp => by rw [nth_map_range _ _ _ (mem_range.mp hp)])
  · have hg1 : ∀ P : ℕ × ℕ, |A P * Real.cos (P.1 * nth x3 p') + B P * Real.sin (P.1 * nth x3 p')| ≤ |A P| + |B P| := by
      intro P
      refine (abs_add_le _ _).trans (add_le_add ?_ ?_)
      · rw [abs_mul]; exact mul_le_of_le_one_right (abs_nonneg _) (Real.abs_cos_le_one _)
      · rw [abs_mul]; exact mul_le_of_le_one_right (abs_nonneg _) (Real.abs_sin_le_one _)
    obtain ⟨a, ha, haf, hat⟩ := col_series hg1 hw0 hwD (hf (nth x3 p'))
    have h5 := axis_close hb1 hn ho1 hS hSo c1 co hyo (le_max_right d1 _) ha haf (hbc _) d1 (hyI q hq)
    have h6 := hm1 (nth y3 q) (y3.map (f (nth x3 p'))) (by simpa using hyl)
    have h7 := hmo (nth y3 q) (y3.map (f (nth x3 p'))) (by simpa using hyl)
    simp only [mulLin_apply] at h6 h7
    rw [h6, h7] at h5
    have h8 : ∀ r ∈ range n1, nth (y3.map (f (nth x3 p'))) r = at_ X [p', r] := fun r hr => by
      rw [nth_map _ _ _ (by rw [hyl]; exact mem_range.mp hr), hXs p' hp' r (mem_range.mp hr)]
    have h9 : ∀ m : ℕ → ℝ, ∑ r ∈ range n1, m r * nth (y3.map (f (nth x3 p'))) r
        = ∑ r ∈ range n1, m r * at_ X [p', r] := fun m => Finset.sum_congr rfl (fun r hr => by rw [h8 r hr])
    rw [h9, h9] at h5
    refine h5.trans (mul_le_mul_of_nonneg_left (hat n1 _ (le_max_right _ _)) (by positivity))

/-- The coefficients of the Chebyshev base are bounded by the samples. -/
theorem cheb_forward_le {n : ℕ} (hn : 2 ≤ n) {u out c : List ℝ} (hu : u.length = n) (ho : out.length = n)
    (hc : Cheb.forwardSlice ⟨n, n⟩ u out = ok c) {M : ℝ} (hM : ∀ p < n, |nth u p| ≤ M) :
    ∀ k < n, |nth c k| ≤ 4 * M := by
  intro k hk
  have hn1 : (1 : ℝ) ≤ (n : ℝ) - 1 := by
    have : (2 : ℝ) ≤ n := by exact_mod_cast hn
    linarith
  have hM0 : 0 ≤ M := (abs_nonneg _).trans (hM 0 (by omega))
  have hcast : ((n - 1 : ℕ) : ℝ) = (n:ℝ) - 1 := by rw [Nat.cast_sub (by omega)]; simp
  have hcR : divR ((1 + 1) * (1 : ℝ)) ((n - 1 : ℕ) : ℝ) = ok (2 / ((n:ℝ) - 1)) := by
    rw [divR_eq, if_neg (by rw [hcast]; linarith), hcast, smul_eq_mul]
    congr 1
    field_simp; norm_num
  have hl : (u.reverse.map fun y => y * (2 / ((n:ℝ) - 1))).length = n := by
    rw [List.length_map, List.length_reverse, hu]
  have e := Cheb.forward_eq hn hcR u out hu ho (by rw [dct_real, dct1_length]; exact hl)
  rw [dct_real] at e
  obtain rfl := Res.ok.inj (e.symm.trans hc)
  have hle : |nth (dct1 (u.reverse.map fun y => y * (2 / ((n:ℝ) - 1)))) k| ≤ 4 * M := by
    refine (dct1_le hn hl hk).trans ?_
    have hS : absSum (u.reverse.map fun y => y * (2 / ((n:ℝ) - 1))) = 2 / ((n:ℝ) - 1) * absSum u := by
      rw [← absSum_reverse u]
      unfold absSum
      rw [List.map_map, ← List.sum_map_mul_left]
      congr 1
      refine List.map_congr_left fun y _ => ?_
      rw [Function.comp, abs_mul, abs_of_pos (by positivity : 0 < 2 / ((n:ℝ) - 1)), mul_comm]
    have h1 := absSum_le (bounded_iff.mpr (fun i hi => hM i (by omega)) : Bounded M u)
    rw [hu] at h1
    rw [hS]
    refine (mul_le_mul_of_nonneg_left h1 (by positivity)).trans ?_
    rw [div_mul_eq_mul_div, div_le_iff₀ (by linarith)]
    nlinarith
  have e1 : ∀ {f : ℕ → ℝ}, nth ((List.range n).map f) k = f k := nth_map_range _ _ _ hk
  rw [e1]
  split
  · rw [abs_mul, abs_of_pos (by norm_num : (0:ℝ) < 1 / 2)]
    linarith
  · exact hle

/-- The derivative of the computed combination, in terms of the samples: real-to-real bases. -/
private theorem r2r_norm {T : Type} [AddCommGroup T] [Module ℝ T] {k : Option CKind} {n : ℕ} {b : BaseR2r}
    (hb : newR2r k n = ok b) (hn : RunsSolve k n) {S : Mat ℝ} (hS : (b.toBase T).stencil = ok S)
    {φ : List ℝ → List ℝ} (hφ : Computes (b.toBase T).forwardSlice (b.toBase T).lenPhys (b.toBase T).lenSpec φ)
    (d : ℕ) {y : ℝ} (hy : y ∈ Set.Icc (-1 : ℝ) 1) (u : List ℝ) (hu : u.length = n) (M : ℝ)
    (hM : ∀ p < n, |nth u p| ≤ M) :
    |∑ i ∈ range (b.toBase T).lenSpec, iteratedDeriv d (stencilFn S i) y * nth (φ u) i|
      ≤ 8 * (n : ℝ) ^ (2 * d + 1) * M := by
  -- a bound of the sum of the coefficients of the Chebyshev series suffices
  have key : ∀ c : List ℝ, c.length = n → ∑ i ∈ range n, |nth c i| ≤ 8 * n * M →
      |chebDeriv ℝ d c y| ≤ 8 * (n : ℝ) ^ (2 * d + 1) * M := by
    intro c hc h
    unfold chebDeriv
    rw [hc]
    refine (abs_sum_le_sum_abs _ _).trans (le_trans (Finset.sum_le_sum (fun i hi => ?_))
      (le_of_eq_of_le (Finset.mul_sum _ _ _).symm
        ((mul_le_mul_of_nonneg_left h (show (0 : ℝ) ≤ (n : ℝ) ^ (2 * d) by positivity)).trans (le_of_eq (by ring)))))
    rw [smul_eq_mul, abs_mul]
    refine mul_le_mul_of_nonneg_right ?_ (abs_nonneg _)
    refine (abs_iterate_derivative_T_le i d (abs_le.mpr hy)).trans ?_
    exact pow_le_pow_left₀ (Nat.cast_nonneg _) (by exact_mod_cast (mem_range.mp hi).le) _
  cases k with
  | none =>
    have hb' := hb
    obtain ⟨hn2, rfl⟩ := chebyshev_inv hb
    have hM0 : 0 ≤ M := (abs_nonneg _).trans (hM 0 (by omega))
    obtain ⟨h1, h2⟩ := hφ u (List.replicate n 0) hu (List.length_replicate ..)
    have h3 := cheb_forward_le hn2 hu (by simp) h1 hM
    rw [cheb_stencil_sum hb' hS _ h2 d y]
    refine key _ h2 ((Finset.sum_le_card_nsmul _ _ _ (fun i hi => h3 i (mem_range.mp hi))).trans ?_)
    rw [card_range, nsmul_eq_mul]
    have : 0 ≤ (n : ℝ) * M := by positivity
    linarith
  | some k =>
    have hb' := hb
    obtain ⟨c, hc, rfl⟩ := composite_inv hb
    have hw := Compo.wf_of_new hc
    have hn2 : 2 ≤ n := le_trans (by cases k <;> decide) hw.le
    have hM0 : 0 ≤ M := (abs_nonneg _).trans (hM 0 (by omega))
    have ho2 : c.lenOrth = n := by simp [Compo.lenOrth, Cheb.lenOrth, hw.ortho]
    obtain ⟨g, hg⟩ := LinOp.computes (cheb_forward_lin (n := n) hn2)
    obtain ⟨h1, h2⟩ := hg u (List.replicate c.lenOrth 0) hu (by simp [ho2])
    have h3 := cheb_forward_le hn2 hu (by simp [ho2]) h1 hM
    obtain ⟨S', v, hS', hv, hvl, hmin⟩ := C14_from_ortho_least_squares (E := ℝ) k n c hc hn (g u)
      (List.replicate c.lenSpec 0) (by rw [h2, ho2]) (by simp)
    obtain rfl : S = S' := Res.ok.inj (hS.symm.trans hS')
    have hSr : S.rows = n := by
      obtain ⟨S', hS', r1, r2, r3⟩ := wp_total.mp (Compo.wp_stencilMat hw)
      obtain rfl : S = S' := Res.ok.inj (hS.symm.trans hS')
      exact r1
    have hφv : φ u = v := by
      have e1 := (hφ u (List.replicate c.lenSpec 0) (hu.trans hw.n_eq.symm) (List.length_replicate ..)).1
      refine Res.ok.inj (e1.symm.trans ?_)
      show c.forwardSlice u _ = _
      unfold Compo.forwardSlice
      dsimp only
      rw [hw.ortho, h1, bind_ok, hv]
    have hz := (hmin (List.replicate c.lenSpec 0) (by simp)).1
    rw [hφv, stencil_sum hb' hS v hvl d y]
    refine key _ (by rw [mulVec_length, hSr]) ?_
    have hz0 : ∀ i < n, nth (mulVec S (List.replicate c.lenSpec (0 : ℝ))) i = 0 := fun i hi => by
      rw [nth_mulVec _ _ (by rw [hSr]; exact hi)]
      refine Finset.sum_eq_zero (fun j _ => ?_)
      have : nth (List.replicate c.lenSpec (0 : ℝ)) j = 0 := by
        by_cases hj : j < c.lenSpec
        · rw [nth_eq_getElem _ _ (by simpa using hj)]; simp
        · exact nth_of_le _ _ (by simpa using hj)
      rw [this, smul_zero]
    have hres : ∑ i ∈ range n, (nth (mulVec S v) i - nth (g u) i) ^ 2 ≤ ∑ i ∈ range n, (nth (g u) i) ^ 2 := by
      unfold residual at hz
      rw [hSr] at hz
      simp only [Real.norm_eq_abs, sq_abs] at hz
      refine hz.trans (le_of_eq (Finset.sum_congr rfl (fun i hi => ?_)))
      rw [hz0 i (mem_range.mp hi)]; ring
    have hsq : ∑ i ∈ range n, (nth (mulVec S v) i) ^ 2 ≤ 64 * n * M ^ 2 := by
      have h4 : ∀ i ∈ range n, (nth (mulVec S v) i) ^ 2
          ≤ 2 * (nth (mulVec S v) i - nth (g u) i) ^ 2 + 2 * (nth (g u) i) ^ 2 := fun i _ => by
        nlinarith [sq_nonneg (nth (mulVec S v) i - 2 * nth (g u) i)]
      have h5 : ∑ i ∈ range n, (nth (g u) i) ^ 2 ≤ n * (16 * M ^ 2) := by
        refine (Finset.sum_le_card_nsmul _ _ _ (fun i hi => ?_)).trans (le_of_eq (by rw [card_range, nsmul_eq_mul]))
        rw [← sq_abs]
        exact (pow_le_pow_left₀ (abs_nonneg _) (h3 i (mem_range.mp hi)) 2).trans (le_of_eq (by ring))
      refine (Finset.sum_le_sum h4).trans ?_
      rw [Finset.sum_add_distrib, ← Finset.mul_sum, ← Finset.mul_sum]
      linarith
    refine abs_le_of_sq_le_sq' ?_ (by positivity) |>.2
    refine (sq_sum_le_card_mul_sum_sq).trans ?_
    simp only [sq_abs]
    rw [card_range]
    refine (mul_le_mul_of_nonneg_left hsq (Nat.cast_nonneg _)).trans (le_of_eq (by ring))

/-- `axis_close` for all real-to-real bases. -/
private theorem axis_close_opt {T : Type} [AddCommGroup T] [Module ℝ T] {k : Option CKind} {n : ℕ} {b o : BaseR2r}
    (hb : newR2r k n = ok b) (hn : RunsSolve k n) (ho : chebyshev n = ok o) {S So : Mat ℝ}
    (hS : (b.toBase T).stencil = ok S) (hSo : (o.toBase T).stencil = ok So) {φ φo : List ℝ → List ℝ}
    (hφ : Computes (b.toBase T).forwardSlice (b.toBase T).lenPhys (b.toBase T).lenSpec φ)
    (hφo : Computes (o.toBase T).forwardSlice (o.toBase T).lenPhys (o.toBase T).lenSpec φo)
    {x : List ℝ} (hx : (o.toBase T).coords = ok x)
    {D : ℕ} (hD : optOrder k ≤ D) {a : ℕ → ℝ} (hs : Summable (fun i : ℕ => |a i| * (i : ℝ) ^ (2 * D)))
    {f : ℝ → ℝ} (hf : ∀ x ∈ Set.Icc (-1 : ℝ) 1, HasSum (fun i : ℕ => a i * (Chebyshev.T ℝ i).eval x) (f x))
    (hbc : OptBC k f) (d : ℕ) {y : ℝ} (hy : y ∈ Set.Icc (-1 : ℝ) 1) :
    |∑ i ∈ range (b.toBase T).lenSpec, iteratedDeriv d (stencilFn S i) y * nth (φ (x.map f)) i
      - ∑ i ∈ range (o.toBase T).lenSpec, iteratedDeriv d (stencilFn So i) y * nth (φo (x.map f)) i|
      ≤ 6 * √n * (n : ℝ) ^ (2 * d) * chebTail a n (optOrder k) := by
  cases k with
  | some k => exact axis_close hb hn ho hS hSo hφ hφo hx hD hs hf hbc d hy
  | none =>
    obtain rfl : b = o := Res.ok.inj (hb.symm.trans ho)
    obtain rfl : S = So := Res.ok.inj (hS.symm.trans hSo)
    have hxl : (x.map f).length = (b.toBase T).lenPhys := by
      obtain ⟨hn2, rfl⟩ := chebyshev_inv ho
      obtain ⟨x2, hx3, hl, -⟩ := C01_coords n ⟨n, n⟩ (cheb_new_ok hn2)
      obtain rfl : x = x2 := Res.ok.inj (hx.symm.trans hx3)
      rw [List.length_map]; exact hl
    have e : φ (x.map f) = φo (x.map f) := Res.ok.inj
      ((hφ _ (List.replicate _ 0) hxl (List.length_replicate ..)).1.symm.trans
        (hφo _ (List.replicate _ 0) hxl (List.length_replicate ..)).1)
    rw [e, sub_self, abs_zero]
    exact mul_nonneg (by positivity) (tsum_nonneg (fun _ => by positivity))

private theorem weights {w : ℕ × ℕ → ℝ} (hw : ∀ P, 0 ≤ w P) {E0 E1 e0 e1 : ℕ}
    (hs : Summable (fun P : ℕ × ℕ => w P * ((P.1 : ℝ) + 1) ^ E0 * ((P.2 : ℝ) + 1) ^ E1)) (h0 : e0 ≤ E0)
    (h1 : e1 ≤ E1) : Summable (fun P : ℕ × ℕ => w P * ((P.1 : ℝ) + 1) ^ e0 * ((P.2 : ℝ) + 1) ^ e1) := by
  refine Summable.of_nonneg_of_le (fun P => mul_nonneg (mul_nonneg (hw P) (by positivity)) (by positivity))
    (fun P => ?_) hs
  refine mul_le_mul (mul_le_mul_of_nonneg_left (pow_le_pow_right₀ ?_ h0) (hw P))
    (pow_le_pow_right₀ ?_ h1) (by positivity) (mul_nonneg (hw P) (by positivity))
  · linarith [Nat.cast_nonneg (α := ℝ) P.1]
  · linarith [Nat.cast_nonneg (α := ℝ) P.2]

private theorem cheb_points {T : Type} [AddCommGroup T] [Module ℝ T] {n : ℕ} {o : BaseR2r}
    (ho : chebyshev n = ok o) : ∃ x, (o.toBase T).coords = ok x ∧ x.length = n ∧
      ∀ j < n, nth x j ∈ Set.Icc (-1 : ℝ) 1 := by
  obtain ⟨hn, rfl⟩ := chebyshev_inv ho
  obtain ⟨x, hx, hl, hxj, -⟩ := C01_coords n _ (cheb_new_ok hn)
  exact ⟨x, hx, hl, fun q hq => by rw [hxj q hq]; exact chebPoint_mem _ _⟩

set_option maxHeartbeats 1000000 in
/-- C98 for BaseR2r×BaseR2r: let `f(x,y) = ∑ a(J,K) T_J(x) T_K(y)` satisfy the boundary conditions of both
bases.  `forward`, `gradient` with orders `d0, d1` and optional scales, and `backward` of the Chebyshev
space return `∂ₓ^d0 ∂ᵧ^d1 f` on the grid, divided by the scales, up to twice the tail of
`∑ |a(J,K)| J^(2 d0) K^(2 d1)` over the pairs that are not resolved, plus the tails on each axis with the
order of the boundary conditions, amplified. -/
theorem C98_space2_r2r (k0 k1 : Option CKind) (n0 n1 : ℕ) (b0 b1 o0 o1 : BaseR2r)
    (hb0 : newR2r k0 n0 = ok b0) (hs0 : RunsSolve k0 n0) (hg0 : RunsGrad k0 n0)
    (hb1 : newR2r k1 n1 = ok b1) (hs1 : RunsSolve k1 n1) (hg1 : RunsGrad k1 n1)
    (ho0 : chebyshev n0 = ok o0) (ho1 : chebyshev n1 = ok o1) (hn0 : 3 ≤ n0) (hn1 : 3 ≤ n1)
    (d0 d1 : ℕ) (a : ℕ × ℕ → ℝ)
    (hs : Summable (fun P : ℕ × ℕ => |a P| * ((P.1 : ℝ) + 1) ^ (2 * max d0 (optOrder k0))
      * ((P.2 : ℝ) + 1) ^ (2 * max d1 (optOrder k1))))
    (f : ℝ → ℝ → ℝ) (hf : ∀ x ∈ Set.Icc (-1 : ℝ) 1, ∀ y ∈ Set.Icc (-1 : ℝ) 1, HasSum (fun P : ℕ × ℕ =>
      a P * (Chebyshev.T ℝ P.1).eval x * (Chebyshev.T ℝ P.2).eval y) (f x y))
    (hbc0 : ∀ y ∈ Set.Icc (-1 : ℝ) 1, OptBC k0 (fun x => f x y))
    (hbc1 : ∀ x ∈ Set.Icc (-1 : ℝ) 1, OptBC k1 (f x))
    (scale : Option (ℝ × ℝ)) (hsc : scale ≠ none → d0 < 2 ^ 31 ∧ d1 < 2 ^ 31)
    (hne : scale2 d0 d1 scale ≠ 0) :
    let sp : Space2 ℝ ℝ ℝ ℝ := ⟨b0.toBase ℝ, b1.toBase ℝ⟩
    let so : Space2 ℝ ℝ ℝ ℝ := ⟨o0.toBase ℝ, o1.toBase ℝ⟩
    ∃ x y, sp.coords = ok [x, y] ∧ so.coords = ok [x, y] ∧ ∀ X : Arr ℝ, Good X [n0, n1] →
      (∀ p < n0, ∀ q < n1, at_ X [p, q] = f (nth x p) (nth y q)) →
      ∃ v g w, sp.forward X = ok v ∧ sp.gradient v d0 d1 scale = ok g ∧ so.backward g = ok w ∧
        Good w [n0, n1] ∧ ∀ p < n0, ∀ q < n1,
          |at_ w [p, q] - (scale2 d0 d1 scale)⁻¹ * iteratedDerivWithin d0
            (fun x => iteratedDerivWithin d1 (f x) (Set.Icc (-1) 1) (nth y q)) (Set.Icc (-1) 1) (nth x p)|
          ≤ |(scale2 d0 d1 scale)⁻¹| * (2 * (∑' P : {P : ℕ × ℕ // ¬(P.1 < n0 ∧ P.2 < n1)},
                |a P| * (P.1.1 : ℝ) ^ (2 * d0) * (P.1.2 : ℝ) ^ (2 * d1))
              + 8 * (n0 : ℝ) ^ (2 * d0 + 1) * (6 * √n1 * (n1 : ℝ) ^ (2 * d1) *
                ∑' P : {P : ℕ × ℕ // ¬ P.2 < n1}, |a P| * (P.1.2 : ℝ) ^ (2 * optOrder k1))
              + 8 * (n1 : ℝ) ^ (2 * d1 + 1) * (6 * √n0 * (n0 : ℝ) ^ (2 * d0) *
                ∑' P : {P : ℕ × ℕ // ¬ P.1 < n0}, |a P| * (P.1.1 : ℝ) ^ (2 * optOrder k0))) := by
  intro sp so
  set D0 := max d0 (optOrder k0) with hD0
  set D1 := max d1 (optOrder k1) with hD1
  have ho0' : newR2r none n0 = ok o0 := ho0
  have ho1' : newR2r none n1 = ok o1 := ho1
  have hW := fun {e0 e1 : ℕ} (h0 : e0 ≤ 2 * D0) (h1 : e1 ≤ 2 * D1) =>
    weights (w := fun P => |a P|) (fun P => abs_nonneg _) hs h0 h1
  have hw0 : Summable (fun P => |a P|) := by simpa using hW (Nat.zero_le _) (Nat.zero_le _)
  have hwD1 : Summable (fun P : ℕ × ℕ => |a P| * (P.2 : ℝ) ^ (2 * D1)) := by
    refine Summable.of_nonneg_of_le (fun P => by positivity) (fun P => ?_) (hW (Nat.zero_le _) le_rfl)
    rw [pow_zero, mul_one]
    exact mul_le_mul_of_nonneg_left (pow_le_pow_left₀ (Nat.cast_nonneg _) (by linarith) _) (by positivity)
  have hwD0 : Summable (fun P : ℕ × ℕ => |a P| * (P.1 : ℝ) ^ (2 * D0)) := by
    refine Summable.of_nonneg_of_le (fun P => by positivity) (fun P => ?_) (hW le_rfl (Nat.zero_le _))
    rw [pow_zero, mul_one]
    exact mul_le_mul_of_nonneg_left (pow_le_pow_left₀ (Nat.cast_nonneg _) (by linarith) _) (by positivity)
  obtain ⟨x, y, hxy, -, hmain⟩ := C88_space2_r2r none none n0 n1 o0 o1 o0 o1 ho0 trivial hn0 ho1 trivial hn1 ho0 ho1
    d0 d1 a (hW (Nat.mul_le_mul_left 2 (le_max_left _ _)) (Nat.mul_le_mul_left 2 (le_max_left _ _))) f hf
    (Or.inl rfl) (Or.inl rfl) scale hsc hne
  obtain ⟨S0, hS0, -⟩ := r2r_stencil (T := ℝ) hb0
  obtain ⟨S0', hS0', -⟩ := r2r_stencil (T := ℝ) ho0'
  obtain ⟨S1, hS1, -⟩ := r2r_stencil (T := ℝ) hb1
  obtain ⟨S1', hS1', -⟩ := r2r_stencil (T := ℝ) ho1'
  obtain ⟨ec0, lp0, lo0, ls0, lt0⟩ := r2r_coords (T := ℝ) hb0 (o := o0) ho0
  obtain ⟨-, -, -, -, lt0'⟩ := r2r_coords (T := ℝ) ho0' (o := o0) ho0
  obtain ⟨ec1, lp1, lo1, ls1, lt1⟩ := r2r_coords (T := ℝ) hb1 (o := o1) ho1
  obtain ⟨-, -, -, -, lt1'⟩ := r2r_coords (T := ℝ) ho1' (o := o1) ho1
  have hcs : sp.coords = so.coords := by
    show (do let c0 ← (b0.toBase ℝ).coords
             let c1 ← (b1.toBase ℝ).coords
             pure [c0, c1]) = (do let c0 ← (o0.toBase ℝ).coords
                                  let c1 ← (o1.toBase ℝ).coords
                                  pure [c0, c1])
    rw [ec0, ec1]
  obtain ⟨x', hxo, hxl, hxI⟩ := cheb_points (T := ℝ) ho0
  obtain ⟨y', hyo, hyl, hyI⟩ := cheb_points (T := ℝ) ho1
  have hco : so.coords = ok [x', y'] := by
    show (do let c0 ← (o0.toBase ℝ).coords
             let c1 ← (o1.toBase ℝ).coords
             pure [c0, c1]) = _
    rw [hxo, hyo]; rfl
  obtain ⟨rfl, h⟩ := List.cons.inj (Res.ok.inj (hxy.symm.trans hco))
  obtain ⟨rfl, -⟩ := List.cons.inj h
  refine ⟨x, y, hcs.trans hxy, hxy, fun X hX hXs => ?_⟩
  obtain ⟨v', g', w', hv', hg', hw', hwG', hwe'⟩ := hmain X hX hXs
  obtain ⟨φ0, c0, L0⟩ := r2r_forward_lin (T := ℝ) hb0 hs0
  obtain ⟨φ0', c0', L0'⟩ := r2r_forward_lin (T := ℝ) ho0' trivial
  obtain ⟨φ1, c1, L1⟩ := r2r_forward_lin (T := ℝ) hb1 hs1
  obtain ⟨φ1', c1', L1'⟩ := r2r_forward_lin (T := ℝ) ho1' trivial
  choose m0 hm0 using fun x => linear_functional (φ := φ0) (n := n0) (fun u hu => c0.len u (hu.trans lp0.symm)) (lp0 ▸ L0)
    (fun i => mulLin (iteratedDeriv d0 (stencilFn S0 i) x))
  choose m0' hm0' using fun x => linear_functional (φ := φ0') (n := n0) (fun u hu => c0'.len u (hu.trans lo0.symm)) (lo0 ▸ L0')
    (fun i => mulLin (iteratedDeriv d0 (stencilFn S0' i) x))
  choose m1 hm1 using fun y => linear_functional (φ := φ1) (n := n1) (fun u hu => c1.len u (hu.trans lp1.symm)) (lp1 ▸ L1)
    (fun i => mulLin (iteratedDeriv d1 (stencilFn S1 i) y))
  choose m1' hm1' using fun y => linear_functional (φ := φ1') (n := n1) (fun u hu => c1'.len u (hu.trans lo1.symm)) (lo1 ▸ L1')
    (fun i => mulLin (iteratedDeriv d1 (stencilFn S1' i) y))
  have hsp : Good X sp.shapePhysical := by
    show Good X [(b0.toBase ℝ).lenPhys, (b1.toBase ℝ).lenPhys]
    rw [lp0, lp1]; exact hX
  have hso : Good X so.shapePhysical := by
    show Good X [(o0.toBase ℝ).lenPhys, (o1.toBase ℝ).lenPhys]
    rw [lo0, lo1]; exact hX
  obtain ⟨x2, y2, v, g, w, hxy2, hv, hg, hw, hwG, hwe⟩ := chain2 sp so (d0 := d0) (d1 := d1)
    (ℓ := fun k x => mulLin (chebFn k x))
    (μ' := fun i x => mulLin (iteratedDeriv d0 (stencilFn S0 i) x))
    (e := chebFn) (ψ := stencilFn S1) (ls0.trans lt0.symm) (ls1.trans lt1.symm)
    (cheb_eval (T := ℝ) (n := n0) ho0)
    (by
      obtain ⟨g, h1, h2⟩ := r2r_differentiates (T := ℝ) hb0 hg0 d0 hS0
      exact ⟨g, h1, fun v hv x => by simpa only [mulLin_apply, smul_eq_mul] using h2 v hv x⟩)
    (cheb_eval (n := n1) ho1) (r2r_differentiates hb1 hg1 d1 hS1) c0 c1 (m0 := m0) (m1 := m1)
    (fun x u hu => (hm0 x u (hu.trans lp0)).trans (by rw [← lp0]))
    (fun y u hu => (hm1 y u (hu.trans lp1)).trans (by rw [← lp1])) hsp hsc hne
  obtain ⟨x3, y3, v3, g3, w3, hxy3, hv3, hg3, hw3, -, hwe3⟩ := chain2 so so (d0 := d0) (d1 := d1)
    (ℓ := fun k x => mulLin (chebFn k x))
    (μ' := fun i x => mulLin (iteratedDeriv d0 (stencilFn S0' i) x))
    (e := chebFn) (ψ := stencilFn S1') (ls0.trans lt0'.symm) (ls1.trans lt1'.symm)
    (cheb_eval (T := ℝ) (n := n0) ho0)
    (by
      obtain ⟨g, h1, h2⟩ := r2r_differentiates (T := ℝ) ho0' hn0 d0 hS0'
      exact ⟨g, h1, fun v hv x => by simpa only [mulLin_apply, smul_eq_mul] using h2 v hv x⟩)
    (cheb_eval (n := n1) ho1) (r2r_differentiates ho1' hn1 d1 hS1') c0' c1' (m0 := m0') (m1 := m1')
    (fun x u hu => (hm0' x u (hu.trans lo0)).trans (by rw [← lo0]))
    (fun y u hu => (hm1' y u (hu.trans lo1)).trans (by rw [← lo1])) hso hsc hne
  obtain ⟨rfl, h⟩ := List.cons.inj (Res.ok.inj (hxy2.symm.trans hxy))
  obtain ⟨rfl, -⟩ := List.cons.inj h
  obtain ⟨rfl, h⟩ := List.cons.inj (Res.ok.inj (hxy3.symm.trans hxy))
  obtain ⟨rfl, -⟩ := List.cons.inj h
  obtain rfl := Res.ok.inj (hv3.symm.trans hv')
  obtain rfl := Res.ok.inj (hg3.symm.trans hg')
  obtain rfl := Res.ok.inj (hw3.symm.trans hw')
  simp only [mulLin_apply] at hm0 hm0' hm1 hm1'
  refine ⟨v, g, w, hv, hg, hw, ?_, fun p hp q hq => ?_⟩
  · have : so.shapePhysical = [n0, n1] := by
      show [(o0.toBase ℝ).lenPhys, (o1.toBase ℝ).lenPhys] = _
      rw [lo0, lo1]
    exact this ▸ hwG
  have h2 := hwe' p hp q hq
  suffices h1 : |at_ w [p, q] - at_ w3 [p, q]| ≤ |(scale2 d0 d1 scale)⁻¹| *
      (8 * (n0 : ℝ) ^ (2 * d0 + 1) * (6 * √n1 * (n1 : ℝ) ^ (2 * d1) *
        ∑' P : {P : ℕ × ℕ // ¬ P.2 < n1}, |a P| * (P.1.2 : ℝ) ^ (2 * optOrder k1))
      + 8 * (n1 : ℝ) ^ (2 * d1 + 1) * (6 * √n0 * (n0 : ℝ) ^ (2 * d0) *
        ∑' P : {P : ℕ × ℕ // ¬ P.1 < n0}, |a P| * (P.1.1 : ℝ) ^ (2 * optOrder k0))) from
    (abs_sub_le _ (at_ w3 [p, q]) _).trans ((add_le_add h1 h2).trans (le_of_eq (by ring)))
  rw [hwe p (lt_of_lt_of_eq hp lo0.symm) q (lt_of_lt_of_eq hq lo1.symm),
    hwe3 p (lt_of_lt_of_eq hp lo0.symm) q (lt_of_lt_of_eq hq lo1.symm), ← mul_sub, abs_mul]
  refine mul_le_mul_of_nonneg_left ?_ (abs_nonneg _)
  show |∑ p' ∈ range (b0.toBase ℝ).lenPhys, m0 (nth x3 p) p' * ∑ q' ∈ range (b1.toBase ℝ).lenPhys, m1 (nth y3 q) q' * at_ X [p', q']
    - ∑ p' ∈ range (o0.toBase ℝ).lenPhys, m0' (nth x3 p) p' * ∑ q' ∈ range (o1.toBase ℝ).lenPhys, m1' (nth y3 q) q' * at_ X [p', q']| ≤ _
  rw [lp0, lp1, lo0, lo1]
  have hlist : ∀ (n : ℕ) (m u : ℕ → ℝ), ∑ r ∈ range n, m r * nth ((List.range n).map u) r = ∑ r ∈ range n, m r * u r :=
    fun n m u => Finset.sum_congr rfl (fun r hr => by rw [nth_map_range _ _ _ (mem_range.mp hr)])
  refine product_close (X := fun p q => at_ X [p, q]) (fun u M hM => ?_) (fun u M hM => ?_) (fun p' hp' => ?_)
    (fun q' hq' => ?_)
  · have h4 := r2r_norm hb0 hs0 hS0 c0 d0 (hxI p hp) ((List.range n0).map u) (by simp) M
      (fun p hp => by rw [nth_map_range _ _ _ hp]; exact hM p hp)
    rwa [hm0 (nth x3 p) ((List.range n0).map u) (by simp), hlist] at h4
  · have h4 := r2r_norm ho1' trivial hS1' c1' d1 (hyI q hq) ((List.range n1).map u) (by simp) M
      (fun p hp => by rw [nth_map_range _ _ _ hp]; exact hM p hp)
    rwa [hm1' (nth y3 q) ((List.range n1).map u) (by simp), hlist] at h4
  · have hxp := hxI p' hp'
    have hg1 : ∀ P : ℕ × ℕ, |a P * (Chebyshev.T ℝ P.1).eval (nth x3 p')| ≤ |a P| := fun P => by
      rw [abs_mul]
      exact mul_le_of_le_one_right (abs_nonneg _) (Chebyshev.abs_eval_T_real_le_one _ (abs_le.mpr hxp))
    obtain ⟨c, ha, haf, hat⟩ := col_series hg1 hw0 hwD1 (hf (nth x3 p') hxp)
    have h5 := axis_close_opt hb1 hs1 ho1 hS1 hS1' c1 c1' hyo (le_max_right d1 _) ha haf (hbc1 _ hxp) d1 (hyI q hq)
    rw [hm1 (nth y3 q) (y3.map (f (nth x3 p'))) (by simpa using hyl),
      hm1' (nth y3 q) (y3.map (f (nth x3 p'))) (by simpa using hyl)] at h5
    have h9 : ∀ m : ℕ → ℝ, ∑ r ∈ range n1, m r * nth (y3.map (f (nth x3 p'))) r
        = ∑ r ∈ range n1, m r * at_ X [p', r] := fun m => Finset.sum_congr rfl (fun r hr => by
      rw [nth_map _ _ _ (by rw [hyl]; exact mem_range.mp hr), hXs p' hp' r (mem_range.mp hr)])
    rw [h9, h9] at h5
    exact h5.trans (mul_le_mul_of_nonneg_left (hat n1 _ (le_max_right _ _)) (by positivity))
  · have hyq := hyI q' hq'
    have hg1 : ∀ P : ℕ × ℕ, |a P.swap * (Chebyshev.T ℝ P.1).eval (nth y3 q')| ≤ |a P.swap| := fun P => by
      rw [abs_mul]
      exact mul_le_of_le_one_right (abs_nonneg _) (Chebyshev.abs_eval_T_real_le_one _ (abs_le.mpr hyq))
    obtain ⟨c, ha, haf, hat⟩ := col_series (D := D0) (F := fun x => f x (nth y3 q')) hg1
      ((Equiv.prodComm ℕ ℕ).summable_iff.mpr hw0) ((Equiv.prodComm ℕ ℕ).summable_iff.mpr hwD0)
      (fun x hx => by
        have := (Equiv.prodComm ℕ ℕ).hasSum_iff.mpr (hf x hx _ hyq)
        convert! this using 1
        funext P
        simp only [Function.comp, Equiv.prodComm_apply, Prod.fst_swap, Prod.snd_swap]
        ring)
    have h5 := axis_close_opt hb0 hs0 ho0 hS0 hS0' c0 c0' hxo (le_max_right d0 _) ha haf (hbc0 _ hyq) d0 (hxI p hp)
    rw [hm0 (nth x3 p) (x3.map (fun x => f x (nth y3 q'))) (by simpa using hxl),
      hm0' (nth x3 p) (x3.map (fun x => f x (nth y3 q'))) (by simpa using hxl)] at h5
    have h9 : ∀ m : ℕ → ℝ, ∑ r ∈ range n0, m r * nth (x3.map (fun x => f x (nth y3 q'))) r
        = ∑ r ∈ range n0, m r * at_ X [r, q'] := fun m => Finset.sum_congr rfl (fun r hr => by
      rw [nth_map _ _ _ (by rw [hxl]; exact mem_range.mp hr), hXs r (mem_range.mp hr) q' hq'])
    rw [h9, h9] at h5
    refine h5.trans (mul_le_mul_of_nonneg_left ((hat n0 _ (le_max_right _ _)).trans (le_of_eq ?_)) (by positivity))
    exact Equiv.tsum_eq ((Equiv.prodComm ℕ ℕ).subtypeEquiv (p := fun P => ¬ P.2 < n0) (q := fun P => ¬ P.1 < n0)
      (fun P => Iff.rfl)) (fun P : {P : ℕ × ℕ // ¬ P.1 < n0} => |a P| * (P.1.1 : ℝ) ^ (2 * optOrder k0))

/-- The function `cos(20 x) g(y)`, `g = T₁₂ / 144 - T₁₀ / 100`, meets the hypotheses of the Fourier–Chebyshev
space with the Neumann base for all orders; on a grid of 8 × 8 points the pair (20, 12) is not resolved. -/
example (d0 e : ℕ) : ∃ (A B : ℕ × ℕ → ℝ) (f : ℝ → ℝ → ℝ), A (20, 12) ≠ 0 ∧
    Summable (fun P : ℕ × ℕ => (|A P| + |B P|) * ((P.1 : ℝ) + 1) ^ d0 * ((P.2 : ℝ) + 1) ^ (2 * e)) ∧
    (∀ x, ∀ y ∈ Set.Icc (-1 : ℝ) 1, HasSum (fun P : ℕ × ℕ =>
      (A P * Real.cos (P.1 * x) + B P * Real.sin (P.1 * x)) * (Chebyshev.T ℝ P.2).eval y) (f x y)) ∧
    ∀ x, FunctionBC .neumann (f x) := by
  obtain ⟨a, g, hz, ha, hg, hbc⟩ := neumann_function
  set A : ℕ × ℕ → ℝ := fun P => if P.1 = 20 then a P.2 else 0 with hA
  have hz2 : ∀ P ∉ ({20} ×ˢ {10, 12} : Finset (ℕ × ℕ)), A P = 0 := fun P hP => by
    rw [hA]; dsimp only
    split
    · next h =>
      refine hz _ (fun h2 => hP ?_)
      exact Finset.mem_product.mpr ⟨by simpa using h, h2⟩
    · rfl
  refine ⟨A, fun _ => 0, fun x y => Real.cos (20 * x) * g y, by simpa [hA] using ha, ?_, fun x y hy => ?_, fun x c hc => ?_⟩
  · exact summable_of_ne_finset_zero (s := {20} ×ˢ {10, 12}) (fun P hP => by rw [hz2 P hP]; simp)
  · have h1 : HasSum (fun P : ℕ × ℕ =>
        (A P * Real.cos (P.1 * x) + 0 * Real.sin (P.1 * x)) * (Chebyshev.T ℝ P.2).eval y)
        (∑ P ∈ {20} ×ˢ {10, 12}, (A P * Real.cos (P.1 * x) + 0 * Real.sin (P.1 * x)) * (Chebyshev.T ℝ P.2).eval y) :=
      hasSum_sum_of_ne_finset_zero (fun P hP => by rw [hz2 P hP]; simp)
    have h2 : HasSum (fun k : ℕ => a k * (Chebyshev.T ℝ k).eval y)
        (∑ k ∈ {10, 12}, a k * (Chebyshev.T ℝ (k : ℕ)).eval y) :=
      hasSum_sum_of_ne_finset_zero (fun k hk => by rw [hz k hk, zero_mul])
    dsimp only
    rw [(hg y hy).unique h2, Finset.mul_sum]
    convert! h1 using 1
    rw [Finset.sum_product, Finset.sum_singleton]
    refine Finset.sum_congr rfl (fun k _ => ?_)
    simp only [hA, if_true, zero_mul, add_zero]
    push_cast
    ring
  · have h1 := hbc c hc
    have hc1 : c.1 = 1 := by
      simp only [conditions, List.mem_cons, List.not_mem_nil, or_false] at hc
      rcases hc with rfl | rfl <;> rfl
    rw [hc1, iteratedDerivWithin_one] at h1 ⊢
    rw [derivWithin_const_mul_field, h1, mul_zero]

/-- The function `g(x) g(y)` meets the hypotheses of the space of two Neumann bases for all orders. -/
example (e0 e1 : ℕ) : ∃ (a : ℕ × ℕ → ℝ) (f : ℝ → ℝ → ℝ), a (12, 12) ≠ 0 ∧
    Summable (fun P : ℕ × ℕ => |a P| * ((P.1 : ℝ) + 1) ^ (2 * e0) * ((P.2 : ℝ) + 1) ^ (2 * e1)) ∧
    (∀ x ∈ Set.Icc (-1 : ℝ) 1, ∀ y ∈ Set.Icc (-1 : ℝ) 1, HasSum (fun P : ℕ × ℕ =>
      a P * (Chebyshev.T ℝ P.1).eval x * (Chebyshev.T ℝ P.2).eval y) (f x y)) ∧
    (∀ y ∈ Set.Icc (-1 : ℝ) 1, OptBC (some .neumann) (fun x => f x y)) ∧
    ∀ x ∈ Set.Icc (-1 : ℝ) 1, OptBC (some .neumann) (f x) := by
  obtain ⟨a, g, hz, ha, hg, hbc⟩ := neumann_function
  have hz2 : ∀ P ∉ ({10, 12} ×ˢ {10, 12} : Finset (ℕ × ℕ)), a P.1 * a P.2 = 0 := fun P hP => by
    by_cases h : P.1 ∈ ({10, 12} : Finset ℕ)
    · rw [hz P.2 (fun h2 => hP (Finset.mem_product.mpr ⟨h, h2⟩)), mul_zero]
    · rw [hz P.1 h, zero_mul]
  have hfin : ∀ x ∈ Set.Icc (-1 : ℝ) 1, g x = ∑ k ∈ {10, 12}, a k * (Chebyshev.T ℝ (k : ℕ)).eval x := fun x hx => by
    have h2 : HasSum (fun k : ℕ => a k * (Chebyshev.T ℝ k).eval x)
        (∑ k ∈ {10, 12}, a k * (Chebyshev.T ℝ (k : ℕ)).eval x) :=
      hasSum_sum_of_ne_finset_zero (fun k hk => by rw [hz k hk, zero_mul])
    exact (hg x hx).unique h2
  have hb1 : ∀ s : ℝ, FunctionBC .neumann (fun y => s * g y) := fun s c hc => by
    have h1 := hbc c hc
    have hc1 : c.1 = 1 := by
      simp only [conditions, List.mem_cons, List.not_mem_nil, or_false] at hc
      rcases hc with rfl | rfl <;> rfl
    rw [hc1, iteratedDerivWithin_one] at h1 ⊢
    rw [derivWithin_const_mul_field, h1, mul_zero]
  refine ⟨fun P => a P.1 * a P.2, fun x y => g x * g y, mul_ne_zero ha ha, ?_, fun x hx y hy => ?_,
    fun y _ => ?_, fun x _ => hb1 (g x)⟩
  · exact summable_of_ne_finset_zero (s := {10, 12} ×ˢ {10, 12}) (fun P hP => by dsimp only; rw [hz2 P hP]; simp)
  · have h1 : HasSum (fun P : ℕ × ℕ => a P.1 * a P.2 * (Chebyshev.T ℝ P.1).eval x * (Chebyshev.T ℝ P.2).eval y)
        (∑ P ∈ {10, 12} ×ˢ {10, 12}, a P.1 * a P.2 * (Chebyshev.T ℝ (P.1 : ℕ)).eval x * (Chebyshev.T ℝ (P.2 : ℕ)).eval y) :=
      hasSum_sum_of_ne_finset_zero (fun P hP => by rw [hz2 P hP, zero_mul, zero_mul])
    convert! h1 using 1
    dsimp only
    rw [hfin x hx, hfin y hy, Finset.sum_mul_sum, Finset.sum_product]
    exact Finset.sum_congr rfl (fun i _ => Finset.sum_congr rfl (fun j _ => by ring))
  · show FunctionBC .neumann (fun x => g x * g y)
    have := hb1 (g y)
    simpa only [mul_comm] using this

end Verif.Props
