/-
Property C121: spectral differentiation in two dimensions converges with a rate for every smooth function.
-/
import Verif.Proof.Interp2
import Verif.Props.PoissonRate

namespace Verif.Props
open Res Spec Finset Polynomial

/-- `forward`, `gradient`, `backward` of Chebyshev × Chebyshev differentiate the interpolant of the samples. -/
theorem space2_card (k0 k1 : Option CKind) (n0 n1 : ℕ) (b0 b1 o0 o1 : BaseR2r)
    (hb0 : newR2r k0 n0 = ok b0) (hs0 : RunsSolve k0 n0) (hg0 : RunsGrad k0 n0)
    (hb1 : newR2r k1 n1 = ok b1) (hs1 : RunsSolve k1 n1) (hg1 : RunsGrad k1 n1)
    (ho0 : chebyshev n0 = ok o0) (ho1 : chebyshev n1 = ok o1) (d0 d1 : ℕ) (f : ℝ → ℝ → ℝ)
    (hk0 : k0 = none ∨ k0 = some .dirichlet ∧ ∀ y ∈ Set.Icc (-1 : ℝ) 1, f (-1) y = 0 ∧ f 1 y = 0)
    (hk1 : k1 = none ∨ k1 = some .dirichlet ∧ ∀ x ∈ Set.Icc (-1 : ℝ) 1, f x (-1) = 0 ∧ f x 1 = 0)
    (scale : Option (ℝ × ℝ)) (hsc : scale ≠ none → d0 < 2 ^ 31 ∧ d1 < 2 ^ 31)
    (hne : scale2 d0 d1 scale ≠ 0) :
    let sp : Space2 ℝ ℝ ℝ ℝ := ⟨b0.toBase ℝ, b1.toBase ℝ⟩
    let so : Space2 ℝ ℝ ℝ ℝ := ⟨o0.toBase ℝ, o1.toBase ℝ⟩
    ∃ x y, sp.coords = ok [x, y] ∧ so.coords = ok [x, y] ∧ (∀ p < n0, nth x p = chebPoint n0 p) ∧ (∀ q < n1, nth y q = chebPoint n1 q) ∧
      ∀ X : Arr ℝ, Good X [n0, n1] →
      (∀ p < n0, ∀ q < n1, at_ X [p, q] = f (nth x p) (nth y q)) →
      ∃ v g w, sp.forward X = ok v ∧ sp.gradient v d0 d1 scale = ok g ∧ so.backward g = ok w ∧
        Good w [n0, n1] ∧ ∀ p < n0, ∀ q < n1, at_ w [p, q] = (scale2 d0 d1 scale)⁻¹ * ∑ j ∈ range n1,
          (∑ i ∈ range n0, f (chebPoint n0 i) (chebPoint n1 j) * (derivative^[d0] (card n0 i)).eval (nth x p))
            * (derivative^[d1] (card n1 j)).eval (nth y q) := by
  intro sp so
  classical
  have hm : ∀ k : Option CKind, k = none ∨ k = some .dirichlet → RunsMul k := by
    rintro k (rfl | rfl)
    · trivial
    · exact Or.inl rfl
  obtain ⟨x', hx', hn0, hxj⟩ := coords_point (T := ℝ) ho0
  obtain ⟨y', hy', hn1, hyj⟩ := coords_point (T := ℝ) ho1
  set F : ℕ → ℕ → ℝ := fun p q => f (chebPoint n0 p) (chebPoint n1 q) with hF
  have hz0 : ∀ p q, F p q ≠ 0 → k0 = none ∨ k0 = some .dirichlet ∧ p ≠ 0 ∧ p ≠ n0 - 1 := by
    intro p q h
    refine hk0.imp id (fun hk => ⟨hk.1, fun hp => h ?_, fun hp => h ?_⟩)
    · rw [hF]; dsimp only
      rw [hp, chebPoint_zero]
      exact (hk.2 _ (chebPoint_mem n1 q)).1
    · rw [hF]; dsimp only
      rw [hp, chebPoint_last hn0]
      exact (hk.2 _ (chebPoint_mem n1 q)).2
  have hz1 : ∀ p q, F p q ≠ 0 → k1 = none ∨ k1 = some .dirichlet ∧ q ≠ 0 ∧ q ≠ n1 - 1 := by
    intro p q h
    refine hk1.imp id (fun hk => ⟨hk.1, fun hp => h ?_, fun hp => h ?_⟩)
    · rw [hF]; dsimp only
      rw [hp, chebPoint_zero]
      exact (hk.2 _ (chebPoint_mem n0 p)).1
    · rw [hF]; dsimp only
      rw [hp, chebPoint_last hn1]
      exact (hk.2 _ (chebPoint_mem n0 p)).2
  have hzero : ∀ (k : Option CKind) (n : ℕ), (k = none ∨ k = some .dirichlet) →
      (0 : ℝ[X]).degree < n ∧ PolyBC k 0 := by
    rintro k n (rfl | rfl)
    · exact ⟨by simpa using WithBot.bot_lt_coe n, trivial⟩
    · exact ⟨by simpa using WithBot.bot_lt_coe n, by simp [PolyBC]⟩
  set P : ℕ → ℝ[X] := fun r => C (F (r / n1) (r % n1)) * card n0 (r / n1) with hP
  set Q : ℕ → ℝ[X] := fun r => if F (r / n1) (r % n1) = 0 then 0 else C 1 * card n1 (r % n1) with hQ
  have hlt : ∀ r < n0 * n1, r / n1 < n0 ∧ r % n1 < n1 := fun r hr =>
    ⟨(Nat.div_lt_iff_lt_mul (by omega)).mpr hr, Nat.mod_lt _ (by omega)⟩
  obtain ⟨x, y, hxy, hxyo, hmain⟩ := C59_space2_r2r k0 k1 n0 n1 b0 b1 o0 o1 hb0
    (hm k0 (hk0.imp id And.left)) hs0 hg0 hb1 (hm k1 (hk1.imp id And.left)) hs1 hg1 ho0 ho1 (n0 * n1) P Q
    (fun r hr => by
      rw [hP]; dsimp only
      by_cases h : F (r / n1) (r % n1) = 0
      · rw [h, C_0, zero_mul]; exact hzero k0 n0 (hk0.imp id And.left)
      · exact card_bc hn0 (hlt r hr).1 (hz0 _ _ h) _)
    (fun r hr => by
      rw [hQ]; dsimp only
      by_cases h : F (r / n1) (r % n1) = 0
      · rw [if_pos h]; exact hzero k1 n1 (hk1.imp id And.left)
      · rw [if_neg h]; exact card_bc hn1 (hlt r hr).2 (hz1 _ _ h) _)
    d0 d1 scale hsc hne
  have hco : so.coords = ok [x', y'] := by
    show (do let c0 ← (o0.toBase ℝ).coords
             let c1 ← (o1.toBase ℝ).coords
             pure [c0, c1]) = _
    rw [hx', hy']; rfl
  obtain ⟨rfl, h⟩ := List.cons.inj (Res.ok.inj (hxyo.symm.trans hco))
  obtain ⟨rfl, -⟩ := List.cons.inj h
  -- the interpolant and its derivatives
  have hsum : ∀ (e0 e1 : ℕ) (u t : ℝ), ∑ r ∈ range (n0 * n1), (derivative^[e0] (P r)).eval u
      * (derivative^[e1] (Q r)).eval t = ∑ p ∈ range n0, ∑ q ∈ range n1,
        F p q * (derivative^[e0] (card n0 p)).eval u * (derivative^[e1] (card n1 q)).eval t := by
    intro e0 e1 u t
    rw [← sum_grid n0 n1 (fun p q => F p q * (derivative^[e0] (card n0 p)).eval u
      * (derivative^[e1] (card n1 q)).eval t)]
    refine Finset.sum_congr rfl (fun r _ => ?_)
    rw [hP, hQ]; dsimp only
    rw [iterate_derivative_C_mul, eval_mul, eval_C]
    by_cases h : F (r / n1) (r % n1) = 0
    · rw [h]; simp
    · rw [if_neg h, C_1, one_mul]
  refine ⟨x, y, hxy, hxyo, hxj, hyj, fun X hX hXs => ?_⟩
  obtain ⟨v, g, w, hv, hg, hw, hwG, hwe⟩ := hmain X hX (fun i hi j hj => by
    rw [hXs i hi j hj]
    have := hsum 0 0 (nth x i) (nth y j)
    simp only [Function.iterate_zero, id] at this
    rw [this, Finset.sum_eq_single i, Finset.sum_eq_single j, hxj i hi, hyj j hj,
      card_eval_self hn0 hi, card_eval_self hn1 hj, mul_one, mul_one]
    · intro q _ hq
      rw [hyj j hj, card_eval_ne hq hj, mul_zero]
    · intro h; exact absurd (mem_range.mpr hj) h
    · intro p _ hp
      refine Finset.sum_eq_zero (fun q _ => ?_)
      rw [hxj i hi, card_eval_ne hp hi, mul_zero, zero_mul]
    · intro h; exact absurd (mem_range.mpr hi) h)
  refine ⟨v, g, w, hv, hg, hw, hwG, fun p hp q hq => ?_⟩
  rw [hwe p hp q hq, hsum, Finset.sum_comm]
  congr 1
  exact Finset.sum_congr rfl fun j _ => by rw [Finset.sum_mul]

/-- the same for Fourier × Chebyshev; the interpolants along the first axis are given -/
theorem space2_card_r2c (n0 : ℕ) (bx : Base ℝ ℂ ℂ) (hbx : IsR2c n0 bx) (k1 : Option CKind) (n1 : ℕ) (b1 o1 : BaseR2r)
    (hb1 : newR2r k1 n1 = ok b1) (hs1 : RunsSolve k1 n1) (hg1 : RunsGrad k1 n1) (ho1 : chebyshev n1 = ok o1) (d0 d1 : ℕ)
    (f : ℝ → ℝ → ℝ) (hk1 : k1 = none ∨ k1 = some .dirichlet ∧ ∀ x, f x (-1) = 0 ∧ f x 1 = 0) (A' B' : ℕ → ℕ → ℝ)
    (hB' : ∀ q, 2 * (n0 / 2) = n0 → B' q (n0 / 2) = 0)
    (hgrid : ∀ q, ∀ j < n0, trigPoly (n0 / 2) (A' q) (B' q) (2 * Real.pi * j / n0) = f (2 * Real.pi * j / n0) (chebPoint n1 q))
    (hZ : ∀ q, (∀ j < n0, f (2 * Real.pi * j / n0) (chebPoint n1 q) = 0) → trigPoly (n0 / 2) (A' q) (B' q) = fun _ => 0)
    (scale : Option (ℝ × ℝ)) (hsc : scale ≠ none → d0 < 2 ^ 31 ∧ d1 < 2 ^ 31) (hne : scale2 d0 d1 scale ≠ 0) :
    let sp : Space2 ℝ ℝ ℂ ℂ := ⟨bx, b1.toBase ℂ⟩
    let so : Space2 ℝ ℝ ℂ ℂ := ⟨bx, o1.toBase ℂ⟩
    ∃ x y, sp.coords = ok [x, y] ∧ so.coords = ok [x, y] ∧ (∀ p < n0, nth x p = 2 * Real.pi * p / n0) ∧ (∀ q < n1, nth y q = chebPoint n1 q) ∧
      ∀ X : Arr ℝ, Good X [n0, n1] →
      (∀ p < n0, ∀ q < n1, at_ X [p, q] = f (nth x p) (nth y q)) →
      ∃ v g w, sp.forward X = ok v ∧ sp.gradient v d0 d1 scale = ok g ∧ so.backward g = ok w ∧
        Good w [n0, n1] ∧ ∀ p < n0, ∀ q < n1, at_ w [p, q] = (scale2 d0 d1 scale)⁻¹ * ∑ j ∈ range n1,
          iteratedDeriv d0 (trigPoly (n0 / 2) (A' j) (B' j)) (nth x p) * (derivative^[d1] (card n1 j)).eval (nth y q) := by
  classical
  intro sp so
  have hm : RunsMul k1 := by
    rcases hk1 with rfl | ⟨rfl, -⟩
    · trivial
    · exact Or.inl rfl
  have hn0 : 1 ≤ n0 := hbx.1
  obtain ⟨y', hy', hn1, hyj⟩ := coords_point (T := ℂ) ho1
  obtain ⟨x', hx', hxj⟩ : ∃ x, bx.coords = ok x ∧ ∀ j < n0, nth x j = 2 * Real.pi * j / n0 := by
    obtain ⟨hn, b0, hb, rfl⟩ := hbx
    obtain rfl := r2c_inv hb
    obtain ⟨x, h1, -, h2⟩ := C23_r2c_coords n0 hn ⟨n0, n0 / 2 + 1⟩ rfl
    exact ⟨x, h1, h2⟩
  have hin : ∀ q < n1, (k1 = none ∨ k1 = some .dirichlet ∧ q ≠ 0 ∧ q ≠ n1 - 1)
      ∨ trigPoly (n0 / 2) (A' q) (B' q) = fun _ => 0 := by
    intro q hq
    rcases hk1 with h | ⟨h, hb⟩
    · exact Or.inl (Or.inl h)
    · by_cases hqb : q = 0 ∨ q = n1 - 1
      · right
        refine hZ q (fun j hj => ?_)
        rcases hqb with rfl | rfl
        · rw [chebPoint_zero]; exact (hb _).1
        · rw [chebPoint_last hn1]; exact (hb _).2
      · exact Or.inl (Or.inr ⟨h, not_or.mp hqb⟩)
  set Q : ℕ → ℝ[X] := fun q => if k1 = none ∨ k1 = some .dirichlet ∧ q ≠ 0 ∧ q ≠ n1 - 1 then
    C 1 * card n1 q else 0 with hQ
  obtain ⟨x, y, hxy, hxyo, hmain⟩ := C59_space2_r2c_r2r n0 (n0 / 2) (by omega) bx hbx k1 n1 b1 o1 hb1 hm hs1
    hg1 ho1 n1 A' B' (fun h q _ => hB' q h) Q
    (fun q hq => by
      rw [hQ]; dsimp only
      split
      · next h => exact card_bc hn1 hq h 1
      · refine ⟨by simpa using WithBot.bot_lt_coe n1, ?_⟩
        rcases hk1 with rfl | ⟨rfl, -⟩
        · trivial
        · simp [PolyBC])
    d0 d1 scale hsc hne
  have hco : so.coords = ok [x', y'] := by
    show (do let c0 ← bx.coords
             let c1 ← (o1.toBase ℂ).coords
             pure [c0, c1]) = _
    rw [hx', hy']; rfl
  obtain ⟨rfl, h⟩ := List.cons.inj (Res.ok.inj (hxyo.symm.trans hco))
  obtain ⟨rfl, -⟩ := List.cons.inj h
  have hsum : ∀ (e0 e1 : ℕ) (u t : ℝ), ∑ q ∈ range n1, iteratedDeriv e0 (trigPoly (n0 / 2) (A' q) (B' q)) u
      * (derivative^[e1] (Q q)).eval t = ∑ q ∈ range n1,
        iteratedDeriv e0 (trigPoly (n0 / 2) (A' q) (B' q)) u * (derivative^[e1] (card n1 q)).eval t := by
    intro e0 e1 u t
    refine Finset.sum_congr rfl (fun q hq => ?_)
    rcases hin q (mem_range.mp hq) with h | h
    · rw [hQ]; dsimp only
      rw [if_pos h, C_1, one_mul]
    · have : iteratedDeriv e0 (trigPoly (n0 / 2) (A' q) (B' q)) u = 0 := by
        rw [h]; simp
      rw [this, zero_mul, zero_mul]
  refine ⟨x, y, hxy, hxyo, hxj, hyj, fun X hX hXs => ?_⟩
  obtain ⟨v, g, w, hv, hg, hw, hwG, hwe⟩ := hmain X hX (fun i hi j hj => by
    rw [hXs i hi j hj]
    have := hsum 0 0 (nth x i) (nth y j)
    simp only [Function.iterate_zero, id, iteratedDeriv_zero] at this
    rw [this, Finset.sum_eq_single j, hyj j hj, card_eval_self hn1 hj, mul_one, hxj i hi, hgrid j i hi]
    · intro q _ hq
      rw [hyj j hj, card_eval_ne hq hj, mul_zero]
    · intro h; exact absurd (mem_range.mpr hj) h)
  refine ⟨v, g, w, hv, hg, hw, hwG, fun p hp q hq => ?_⟩
  rw [hwe p hp q hq, hsum]

/-- a bound of the derivatives that control the interpolation error, uniform in a parameter -/
theorem bounds_cos {p : ℕ} {Z : ℝ → ℝ → ℝ} (hZ : ContDiff ℝ p (Function.uncurry Z)) (c T : ℝ) :
    ∃ M, 0 ≤ M ∧ ∀ t ∈ Set.Icc c T, ∀ θ, |iteratedDeriv p (fun θ => Z t (Real.cos θ)) θ| ≤ M := by
  have hH : ContDiff ℝ p (Function.uncurry fun t θ => Z t (Real.cos θ)) :=
    hZ.comp (contDiff_fst.prodMk (Real.contDiff_cos.comp contDiff_snd))
  obtain ⟨M, h0, hM⟩ := bound_iteratedDeriv_snd hH c T 0 (2 * Real.pi)
  refine ⟨M, h0, fun t ht θ => ?_⟩
  have hper : Function.Periodic (fun θ => Z t (Real.cos θ)) (2 * Real.pi) := fun θ => by dsimp only; rw [Real.cos_add_two_pi]
  obtain ⟨y, hy, e⟩ := (periodic_iteratedDeriv p hper).exists_mem_Ico₀ (by positivity) θ
  rw [e]
  exact hM t ht y ⟨hy.1, hy.2.le⟩

/-- the derivative in the first variable as a function of both -/
theorem contDiff_iteratedDeriv_fst (d : ℕ) {q : ℕ} {f : ℝ → ℝ → ℝ} (hf : ContDiff ℝ (q + d : ℕ) (Function.uncurry f)) :
    ContDiff ℝ q (Function.uncurry fun x y => iteratedDeriv d (fun s => f s y) x) := by
  have h1 : ContDiff ℝ (q + d : ℕ) (Function.uncurry fun y s => f s y) := hf.comp (contDiff_snd.prodMk contDiff_fst)
  exact (continuous_iteratedDeriv_snd d h1).comp (contDiff_snd.prodMk contDiff_fst)

private theorem close_bound {s S T E F : ℝ} (h : |S - T| ≤ E) (hE : E ≤ F) : |s * S - s * T| ≤ |s| * F := by
  rw [← mul_sub, abs_mul]
  exact mul_le_mul_of_nonneg_left (h.trans hE) (abs_nonneg _)

/-- C121 for Chebyshev × Chebyshev (each base `chebyshev`, or `cheb_dirichlet` if the function vanishes on that side):
for every function with `p` continuous derivatives there is a constant such that sampling it on the grid and running
`forward`, `gradient` and `backward` returns its mixed derivative at every grid point, divided by the scales, up to
`K (1 / n1 ^ (p - d0 - 2 d1 - 1) + n1 ^ (2 d1 + 1) / n0 ^ (p - 2 d0 - 1))`, for all sizes from three. -/
theorem C121_chebyshev_chebyshev (d0 d1 p : ℕ) (hp0 : 2 * d0 + 2 ≤ p) (hp1 : d0 + 2 * d1 + 2 ≤ p) (f : ℝ → ℝ → ℝ)
    (hf : ContDiff ℝ p (Function.uncurry f)) :
    ∃ K : ℝ, 0 ≤ K ∧ ∀ (k0 k1 : Option CKind) (n0 n1 : ℕ) (_ : 3 ≤ n0) (_ : 3 ≤ n1) (b0 b1 o0 o1 : BaseR2r)
      (_ : newR2r k0 n0 = ok b0) (_ : RunsSolve k0 n0) (_ : RunsGrad k0 n0)
      (_ : newR2r k1 n1 = ok b1) (_ : RunsSolve k1 n1) (_ : RunsGrad k1 n1)
      (_ : chebyshev n0 = ok o0) (_ : chebyshev n1 = ok o1)
      (_ : k0 = none ∨ k0 = some .dirichlet ∧ ∀ y ∈ Set.Icc (-1 : ℝ) 1, f (-1) y = 0 ∧ f 1 y = 0)
      (_ : k1 = none ∨ k1 = some .dirichlet ∧ ∀ x ∈ Set.Icc (-1 : ℝ) 1, f x (-1) = 0 ∧ f x 1 = 0)
      (scale : Option (ℝ × ℝ)) (_ : scale ≠ none → d0 < 2 ^ 31 ∧ d1 < 2 ^ 31) (_ : scale2 d0 d1 scale ≠ 0),
      let sp : Space2 ℝ ℝ ℝ ℝ := ⟨b0.toBase ℝ, b1.toBase ℝ⟩
      let so : Space2 ℝ ℝ ℝ ℝ := ⟨o0.toBase ℝ, o1.toBase ℝ⟩
      ∃ x y, sp.coords = ok [x, y] ∧ so.coords = ok [x, y] ∧ ∀ X : Arr ℝ, Good X [n0, n1] →
        (∀ i < n0, ∀ j < n1, at_ X [i, j] = f (nth x i) (nth y j)) →
        ∃ v g w, sp.forward X = ok v ∧ sp.gradient v d0 d1 scale = ok g ∧ so.backward g = ok w ∧
          Good w [n0, n1] ∧ ∀ i < n0, ∀ j < n1,
            |at_ w [i, j] - (scale2 d0 d1 scale)⁻¹ *
              iteratedDeriv d1 (fun y => iteratedDeriv d0 (fun x => f x y) (nth x i)) (nth y j)|
            ≤ |(scale2 d0 d1 scale)⁻¹| * (K * (1 / (n1 : ℝ) ^ (p - d0 - 2 * d1 - 1)
              + (n1 : ℝ) ^ (2 * d1 + 1) / (n0 : ℝ) ^ (p - 2 * d0 - 1))) := by
  obtain ⟨q, rfl⟩ := Nat.exists_eq_add_of_le' (by omega : d0 ≤ p)
  have hY := contDiff_iteratedDeriv_fst d0 hf
  obtain ⟨M, hM0, hM⟩ := bounds_cos (Z := fun y x => f x y) (hf.comp (contDiff_snd.prodMk contDiff_fst)) (-1) 1
  obtain ⟨M', hM0', hM'⟩ := bounds_cos hY (-1) 1
  refine ⟨64 * M + 16 * M', by positivity, ?_⟩
  intro k0 k1 n0 n1 hn0 hn1 b0 b1 o0 o1 hb0 hs0 hg0 hb1 hs1 hg1 ho0 ho1 hk0 hk1 scale hsc hne sp so
  obtain ⟨x, y, hx, hx', hxj, hyj, hmain⟩ := space2_card k0 k1 n0 n1 b0 b1 o0 o1 hb0 hs0 hg0 hb1 hs1 hg1 ho0 ho1 d0 d1 f hk0 hk1
    scale hsc hne
  refine ⟨x, y, hx, hx', fun X hX hXs => ?_⟩
  obtain ⟨v, g, w, hv, hg, hw, hwG, hwe⟩ := hmain X hX hXs
  refine ⟨v, g, w, hv, hg, hw, hwG, fun i hi j hj => ?_⟩
  have hxi : nth x i ∈ Set.Icc (-1 : ℝ) 1 := by rw [hxj i hi]; exact chebPoint_mem _ _
  have hyq : nth y j ∈ Set.Icc (-1 : ℝ) 1 := by rw [hyj j hj]; exact chebPoint_mem _ _
  rw [hwe i hi j hj]
  refine close_bound (card_approx (p := q) (by omega) (hY.comp (contDiff_const.prodMk contDiff_id)) (hM' _ hxi) hn1 (fun l hl =>
    card_interp (f := fun s => f s (chebPoint n1 l)) hp0 (hf.comp (contDiff_id.prodMk contDiff_const)) (hM _ (chebPoint_mem n1 l)) hn0 hxi) hyq) ?_
  rw [show q + d0 - d0 - 2 * d1 - 1 = q - 2 * d1 - 1 by omega]
  have e1 : 0 ≤ 1 / (n1 : ℝ) ^ (q - 2 * d1 - 1) := by positivity
  have e2 : 0 ≤ (n1 : ℝ) ^ (2 * d1 + 1) / (n0 : ℝ) ^ (q + d0 - 2 * d0 - 1) := by positivity
  have e3 : 16 * M' / (n1 : ℝ) ^ (q - 2 * d1 - 1) + 4 * (n1 : ℝ) ^ (2 * d1 + 1) * (16 * M / (n0 : ℝ) ^ (q + d0 - 2 * d0 - 1))
    = 16 * M' * (1 / (n1 : ℝ) ^ (q - 2 * d1 - 1)) + 64 * M * ((n1 : ℝ) ^ (2 * d1 + 1) / (n0 : ℝ) ^ (q + d0 - 2 * d0 - 1)) := by ring
  rw [e3]
  nlinarith [mul_nonneg hM0 e1, mul_nonneg hM0' e2]

/-- C121 for Fourier × Chebyshev, the space of the documentation and of the Navier-Stokes examples: functions `2π`-periodic
in the first variable; the error is `K (1 / n1 ^ (p - d0 - 2 d1 - 1) + n1 ^ (2 d1 + 1) / n0 ^ (p - d0 - 1))`. -/
theorem C121_r2c_chebyshev (d0 d1 p : ℕ) (hp1 : d0 + 2 * d1 + 2 ≤ p) (f : ℝ → ℝ → ℝ)
    (hf : ContDiff ℝ p (Function.uncurry f)) (hper : ∀ y, Function.Periodic (fun x => f x y) (2 * Real.pi)) :
    ∃ K : ℝ, 0 ≤ K ∧ ∀ (k1 : Option CKind) (n0 n1 : ℕ) (_ : 3 ≤ n1) (bx : Base ℝ ℂ ℂ) (_ : IsR2c n0 bx) (b1 o1 : BaseR2r)
      (_ : newR2r k1 n1 = ok b1) (_ : RunsSolve k1 n1) (_ : RunsGrad k1 n1) (_ : chebyshev n1 = ok o1)
      (_ : k1 = none ∨ k1 = some .dirichlet ∧ ∀ x, f x (-1) = 0 ∧ f x 1 = 0)
      (scale : Option (ℝ × ℝ)) (_ : scale ≠ none → d0 < 2 ^ 31 ∧ d1 < 2 ^ 31) (_ : scale2 d0 d1 scale ≠ 0),
      let sp : Space2 ℝ ℝ ℂ ℂ := ⟨bx, b1.toBase ℂ⟩
      let so : Space2 ℝ ℝ ℂ ℂ := ⟨bx, o1.toBase ℂ⟩
      ∃ x y, sp.coords = ok [x, y] ∧ so.coords = ok [x, y] ∧ ∀ X : Arr ℝ, Good X [n0, n1] →
        (∀ i < n0, ∀ j < n1, at_ X [i, j] = f (nth x i) (nth y j)) →
        ∃ v g w, sp.forward X = ok v ∧ sp.gradient v d0 d1 scale = ok g ∧ so.backward g = ok w ∧
          Good w [n0, n1] ∧ ∀ i < n0, ∀ j < n1,
            |at_ w [i, j] - (scale2 d0 d1 scale)⁻¹ *
              iteratedDeriv d1 (fun y => iteratedDeriv d0 (fun x => f x y) (nth x i)) (nth y j)|
            ≤ |(scale2 d0 d1 scale)⁻¹| * (K * (1 / (n1 : ℝ) ^ (p - d0 - 2 * d1 - 1)
              + (n1 : ℝ) ^ (2 * d1 + 1) / (n0 : ℝ) ^ (p - d0 - 1))) := by
  obtain ⟨q, rfl⟩ := Nat.exists_eq_add_of_le' (by omega : d0 ≤ p)
  have hY := contDiff_iteratedDeriv_fst d0 hf
  have hfx : ContDiff ℝ (q + d0 : ℕ) (Function.uncurry fun y x => f x y) := hf.comp (contDiff_snd.prodMk contDiff_fst)
  obtain ⟨M, hM0, hM1⟩ := bound_iteratedDeriv_snd hfx (-1) 1 0 (2 * Real.pi)
  have hM : ∀ y ∈ Set.Icc (-1 : ℝ) 1, ∀ x, |iteratedDeriv (q + d0) (fun x => f x y) x| ≤ M := fun y hy x => by
    obtain ⟨z, hz, e⟩ := (periodic_iteratedDeriv (q + d0) (hper y)).exists_mem_Ico₀ (by positivity) x
    rw [e]
    exact hM1 y hy z ⟨hz.1, hz.2.le⟩
  obtain ⟨M', hM0', hM'⟩ := bounds_cos hY 0 (2 * Real.pi)
  refine ⟨64 * M * 2 ^ (q + d0 - d0 - 1) + 16 * M', by positivity, ?_⟩
  intro k1 n0 n1 hn1 bx hbx b1 o1 hb1 hs1 hg1 ho1 hk1 scale hsc hne sp so
  have hn0 : 1 ≤ n0 := hbx.1
  choose A B hB hgrid hZ hE using fun l => trig_interp (f := fun x => f x (chebPoint n1 l)) (d := d0) (by omega : d0 + 2 ≤ q + d0)
    (hf.comp (contDiff_id.prodMk contDiff_const)) (hper _) (hM _ (chebPoint_mem n1 l)) hn0
  obtain ⟨x, y, hx, hx', hxj, hyj, hmain⟩ := space2_card_r2c n0 bx hbx k1 n1 b1 o1 hb1 hs1 hg1 ho1 d0 d1 f hk1 A B hB hgrid hZ
    scale hsc hne
  refine ⟨x, y, hx, hx', fun X hX hXs => ?_⟩
  obtain ⟨v, g, w, hv, hg, hw, hwG, hwe⟩ := hmain X hX hXs
  refine ⟨v, g, w, hv, hg, hw, hwG, fun i hi j hj => ?_⟩
  have hxi : nth x i ∈ Set.Icc 0 (2 * Real.pi) := by
    have h1 : (0 : ℝ) < n0 := by exact_mod_cast hn0
    have h2 : (i : ℝ) ≤ n0 := by exact_mod_cast hi.le
    rw [hxj i hi]
    refine ⟨by positivity, ?_⟩
    rw [div_le_iff₀ h1]
    exact mul_le_mul_of_nonneg_left h2 (by positivity)
  have hyq : nth y j ∈ Set.Icc (-1 : ℝ) 1 := by rw [hyj j hj]; exact chebPoint_mem _ _
  rw [hwe i hi j hj]
  refine close_bound (card_approx (p := q) (by omega) (hY.comp (contDiff_const.prodMk contDiff_id)) (hM' _ hxi) hn1 (fun l _ =>
    hE l (nth x i)) hyq) ?_
  rw [show q + d0 - d0 - 2 * d1 - 1 = q - 2 * d1 - 1 by omega]
  have e1 : 0 ≤ 1 / (n1 : ℝ) ^ (q - 2 * d1 - 1) := by positivity
  have e2 : 0 ≤ (n1 : ℝ) ^ (2 * d1 + 1) / (n0 : ℝ) ^ (q + d0 - d0 - 1) := by positivity
  have e3 : 16 * M' / (n1 : ℝ) ^ (q - 2 * d1 - 1) + 4 * (n1 : ℝ) ^ (2 * d1 + 1)
      * (16 * M * 2 ^ (q + d0 - d0 - 1) / (n0 : ℝ) ^ (q + d0 - d0 - 1))
    = 16 * M' * (1 / (n1 : ℝ) ^ (q - 2 * d1 - 1)) + 64 * M * 2 ^ (q + d0 - d0 - 1) * ((n1 : ℝ) ^ (2 * d1 + 1) / (n0 : ℝ) ^ (q + d0 - d0 - 1)) := by ring
  rw [e3]
  have e4 : 0 ≤ M * 2 ^ (q + d0 - d0 - 1) := by positivity
  nlinarith [mul_nonneg e4 e1, mul_nonneg hM0' e2]

/-- C121, spectral accuracy: for a function with all derivatives the error on the `n × n` grid is below any power of `1 / n`. -/
theorem C121_faster_than_any_power (d0 d1 m : ℕ) (f : ℝ → ℝ → ℝ) (hf : ∀ p : ℕ, ContDiff ℝ p (Function.uncurry f))
    (hper : ∀ y, Function.Periodic (fun x => f x y) (2 * Real.pi)) :
    ∃ K : ℝ, 0 ≤ K ∧ ∀ (k1 : Option CKind) (n : ℕ) (_ : 3 ≤ n) (bx : Base ℝ ℂ ℂ) (_ : IsR2c n bx) (b1 o1 : BaseR2r)
      (_ : newR2r k1 n = ok b1) (_ : RunsSolve k1 n) (_ : RunsGrad k1 n) (_ : chebyshev n = ok o1)
      (_ : k1 = none ∨ k1 = some .dirichlet ∧ ∀ x, f x (-1) = 0 ∧ f x 1 = 0)
      (scale : Option (ℝ × ℝ)) (_ : scale ≠ none → d0 < 2 ^ 31 ∧ d1 < 2 ^ 31) (_ : scale2 d0 d1 scale ≠ 0),
      let sp : Space2 ℝ ℝ ℂ ℂ := ⟨bx, b1.toBase ℂ⟩
      let so : Space2 ℝ ℝ ℂ ℂ := ⟨bx, o1.toBase ℂ⟩
      ∃ x y, sp.coords = ok [x, y] ∧ so.coords = ok [x, y] ∧ ∀ X : Arr ℝ, Good X [n, n] →
        (∀ i < n, ∀ j < n, at_ X [i, j] = f (nth x i) (nth y j)) →
        ∃ v g w, sp.forward X = ok v ∧ sp.gradient v d0 d1 scale = ok g ∧ so.backward g = ok w ∧
          Good w [n, n] ∧ ∀ i < n, ∀ j < n,
            |at_ w [i, j] - (scale2 d0 d1 scale)⁻¹ *
              iteratedDeriv d1 (fun y => iteratedDeriv d0 (fun x => f x y) (nth x i)) (nth y j)|
            ≤ |(scale2 d0 d1 scale)⁻¹| * (K / (n : ℝ) ^ m) := by
  obtain ⟨K, hK0, hK⟩ := C121_r2c_chebyshev d0 d1 (d0 + 2 * d1 + 2 + m) (by omega) f (hf _) hper
  refine ⟨2 * K, by positivity, ?_⟩
  intro k1 n hn bx hbx b1 o1 hb1 hs1 hg1 ho1 hk1 scale hsc hne sp so
  obtain ⟨x, y, hx, hx', hmain⟩ := hK k1 n n hn bx hbx b1 o1 hb1 hs1 hg1 ho1 hk1 scale hsc hne
  refine ⟨x, y, hx, hx', fun X hX hXs => ?_⟩
  obtain ⟨v, g, w, hv, hg, hw, hwG, hwe⟩ := hmain X hX hXs
  refine ⟨v, g, w, hv, hg, hw, hwG, fun i hi j hj => (hwe i hi j hj).trans (mul_le_mul_of_nonneg_left ?_ (abs_nonneg _))⟩
  have hn' : (1 : ℝ) ≤ n := by exact_mod_cast (by omega : 1 ≤ n)
  have hn0 : (0 : ℝ) < n := by linarith
  rw [show d0 + 2 * d1 + 2 + m - d0 - 2 * d1 - 1 = m + 1 by omega, show d0 + 2 * d1 + 2 + m - d0 - 1 = 2 * d1 + 1 + m by omega,
    pow_add (n : ℝ) (2 * d1 + 1) m]
  have h1 : (n : ℝ) ^ (2 * d1 + 1) / ((n : ℝ) ^ (2 * d1 + 1) * (n : ℝ) ^ m) = 1 / (n : ℝ) ^ m := by
    rw [div_mul_eq_div_div, div_self (by positivity)]
  have h2 : 1 / (n : ℝ) ^ (m + 1) ≤ 1 / (n : ℝ) ^ m :=
    one_div_le_one_div_of_le (by positivity) (pow_le_pow_right₀ hn' (by omega))
  rw [h1]
  calc K * (1 / (n : ℝ) ^ (m + 1) + 1 / (n : ℝ) ^ m) ≤ K * (1 / (n : ℝ) ^ m + 1 / (n : ℝ) ^ m) := by gcongr
    _ = 2 * K / (n : ℝ) ^ m := by ring

/-- C121 applies: `exp (sin x) (1 - y²)` in the space of the Navier-Stokes example, `fourier_r2c × cheb_dirichlet`. -/
example : (∀ p : ℕ, ContDiff ℝ p (Function.uncurry fun x y : ℝ => Real.exp (Real.sin x) * (1 - y ^ 2))) ∧
    (∀ y : ℝ, Function.Periodic (fun x => Real.exp (Real.sin x) * (1 - y ^ 2)) (2 * Real.pi)) ∧
    (∀ x : ℝ, Real.exp (Real.sin x) * (1 - (-1 : ℝ) ^ 2) = 0 ∧ Real.exp (Real.sin x) * (1 - (1 : ℝ) ^ 2) = 0) ∧
    (∃ bx, IsR2c 16 bx) ∧ (∃ b : BaseR2r, newR2r (some .dirichlet) 17 = ok b) ∧ RunsSolve (some .dirichlet) 17 ∧
    RunsGrad (some .dirichlet) 17 ∧ (∃ o : BaseR2r, chebyshev 17 = ok o) ∧ scale2 1 1 (some (2, 3)) ≠ 0 :=
  ⟨fun p => by
    have : (Function.uncurry fun x y : ℝ => Real.exp (Real.sin x) * (1 - y ^ 2))
      = fun z : ℝ × ℝ => Real.exp (Real.sin z.1) * (1 - z.2 ^ 2) := rfl
    rw [this]; fun_prop, fun y x => by simp, fun x => by norm_num, (isR2c_exists (n := 16) (by norm_num)).imp fun _ h => h.1, ⟨_, rfl⟩, by
    show CKind.minSolve .dirichlet ≤ 17
    decide, Or.inl rfl, ⟨_, rfl⟩, by
    simp [scale2]⟩

end Verif.Props
