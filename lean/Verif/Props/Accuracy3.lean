/-
Property C88 in three dimensions: spectral accuracy.
-/
import Verif.Proof.Alias3
import Verif.Props.Calculus3
import Verif.Props.Accuracy2

namespace Verif.Props
open Res Spec Finset Polynomial

private theorem sum_grid3 (n0 n1 : ℕ) (G : ℕ → ℕ → ℕ → ℝ) :
    ∑ r ∈ range (n0 * (n1 * n1)), G (r / (n1 * n1)) (r % (n1 * n1) / n1) (r % (n1 * n1) % n1)
      = ∑ p ∈ range n0, ∑ q ∈ range n1, ∑ s ∈ range n1, G p q s := by
  rw [sum_grid n0 (n1 * n1) (fun p r => G p (r / n1) (r % n1))]
  exact Finset.sum_congr rfl fun p _ => sum_grid n1 n1 (G p)

private theorem prod3 (c : ℝ) (l m n : ℕ) (A B D : ℕ → ℝ) :
    c * (∑ i ∈ range l, A i) * (∑ j ∈ range m, B j) * (∑ k ∈ range n, D k)
      = ∑ i ∈ range l, ∑ j ∈ range m, ∑ k ∈ range n, c * A i * B j * D k := by
  rw [Finset.mul_sum (range l), Finset.sum_mul, Finset.sum_mul]
  refine Finset.sum_congr rfl fun i _ => ?_
  rw [Finset.mul_sum (range m), Finset.sum_mul]
  refine Finset.sum_congr rfl fun j _ => ?_
  rw [Finset.mul_sum]

/-- C88 for BaseR2r×BaseR2r×BaseR2r with equal second and third bases (the case in which `gradient` of `Space3` is
right, see C40): let `f(x,y,z) = ∑ a(J,K,L) T_J(x) T_K(y) T_L(z)` with
`∑ |a(J,K,L)| (J+1)^(2 d0) (K+1)^(2 d1) (L+1)^(2 d2) < ∞`.  Sample `f` on the grid; `forward`, `gradient` with orders
`d0, d1, d2` and optional scales, and `backward` of the Chebyshev space return `∂ₓ^d0 ∂ᵧ^d1 ∂_z^d2 f` on the grid,
divided by the scales, up to twice the tail of `∑ |a(J,K,L)| J^(2 d0) K^(2 d1) L^(2 d2)` over the triples that are
not resolved, `J ≥ n0` or `K ≥ n1` or `L ≥ n1`.  The bases are `chebyshev`, or `cheb_dirichlet` for functions that
vanish at the ends of this axis (of these axes). -/
theorem C88_space3_r2r (k0 k1 : Option CKind) (n0 n1 : ℕ) (b0 b1 o0 o1 : BaseR2r)
    (hb0 : newR2r k0 n0 = ok b0) (hs0 : RunsSolve k0 n0) (hg0 : RunsGrad k0 n0)
    (hb1 : newR2r k1 n1 = ok b1) (hs1 : RunsSolve k1 n1) (hg1 : RunsGrad k1 n1)
    (ho0 : chebyshev n0 = ok o0) (ho1 : chebyshev n1 = ok o1)
    (d0 d1 d2 : ℕ) (a : ℕ × ℕ × ℕ → ℝ)
    (hs : Summable (fun P : ℕ × ℕ × ℕ => |a P| * ((P.1 : ℝ) + 1) ^ (2 * d0) * ((P.2.1 : ℝ) + 1) ^ (2 * d1)
      * ((P.2.2 : ℝ) + 1) ^ (2 * d2)))
    (f : ℝ → ℝ → ℝ → ℝ)
    (hf : ∀ x ∈ Set.Icc (-1 : ℝ) 1, ∀ y ∈ Set.Icc (-1 : ℝ) 1, ∀ z ∈ Set.Icc (-1 : ℝ) 1,
      HasSum (fun P : ℕ × ℕ × ℕ => a P * (Chebyshev.T ℝ P.1).eval x * (Chebyshev.T ℝ P.2.1).eval y
        * (Chebyshev.T ℝ P.2.2).eval z) (f x y z))
    (hk0 : k0 = none ∨ k0 = some .dirichlet ∧ ∀ y ∈ Set.Icc (-1 : ℝ) 1, ∀ z ∈ Set.Icc (-1 : ℝ) 1,
      f (-1) y z = 0 ∧ f 1 y z = 0)
    (hk1 : k1 = none ∨ k1 = some .dirichlet ∧ ∀ x ∈ Set.Icc (-1 : ℝ) 1, ∀ y ∈ Set.Icc (-1 : ℝ) 1,
      f x (-1) y = 0 ∧ f x 1 y = 0 ∧ f x y (-1) = 0 ∧ f x y 1 = 0)
    (scale : Option (ℝ × ℝ × ℝ)) (hsc : scale ≠ none → d0 < 2 ^ 31 ∧ d1 < 2 ^ 31 ∧ d2 < 2 ^ 31)
    (hne : scale3 d0 d1 d2 scale ≠ 0) :
    let sp : Space3 ℝ ℝ ℝ ℝ ℝ := ⟨b0.toBase ℝ, b1.toBase ℝ, b1.toBase ℝ⟩
    let so : Space3 ℝ ℝ ℝ ℝ ℝ := ⟨o0.toBase ℝ, o1.toBase ℝ, o1.toBase ℝ⟩
    ∃ x y, sp.coords = ok [x, y, y] ∧ so.coords = ok [x, y, y] ∧ ∀ X : Arr ℝ, Good X [n0, n1, n1] →
      (∀ p < n0, ∀ q < n1, ∀ s < n1, at_ X [p, q, s] = f (nth x p) (nth y q) (nth y s)) →
      ∃ v g w, sp.forward X = ok v ∧ sp.gradient v d0 d1 d2 scale = ok g ∧ so.backward g = ok w ∧
        Good w [n0, n1, n1] ∧ ∀ p < n0, ∀ q < n1, ∀ s < n1,
          |at_ w [p, q, s] - (scale3 d0 d1 d2 scale)⁻¹ * iteratedDerivWithin d0 (fun x => iteratedDerivWithin d1
            (fun y' => iteratedDerivWithin d2 (f x y') (Set.Icc (-1) 1) (nth y s)) (Set.Icc (-1) 1) (nth y q))
              (Set.Icc (-1) 1) (nth x p)|
          ≤ |(scale3 d0 d1 d2 scale)⁻¹| * (2 * ∑' P : {P : ℕ × ℕ × ℕ // ¬(P.1 < n0 ∧ P.2.1 < n1 ∧ P.2.2 < n1)},
              |a P| * (P.1.1 : ℝ) ^ (2 * d0) * (P.1.2.1 : ℝ) ^ (2 * d1) * (P.1.2.2 : ℝ) ^ (2 * d2)) := by
  classical
  intro sp so
  have hm : ∀ k : Option CKind, k = none ∨ k = some .dirichlet → RunsMul k := by
    rintro k (rfl | rfl)
    · trivial
    · exact Or.inl rfl
  obtain ⟨x', hx', hn0, hxj⟩ := coords_point (T := ℝ) ho0
  obtain ⟨y', hy', hn1, hyj⟩ := coords_point (T := ℝ) ho1
  obtain ⟨F, hF⟩ : ∃ F : ℕ → ℕ → ℕ → ℝ, ∀ p q s, F p q s = f (chebPoint n0 p) (chebPoint n1 q) (chebPoint n1 s) :=
    ⟨_, fun _ _ _ => rfl⟩
  have hz0 : ∀ p q s, F p q s ≠ 0 → k0 = none ∨ k0 = some .dirichlet ∧ p ≠ 0 ∧ p ≠ n0 - 1 := by
    intro p q s h
    refine hk0.imp id (fun hk => ⟨hk.1, fun hp => h ?_, fun hp => h ?_⟩)
    · rw [hF, hp, chebPoint_zero]
      exact (hk.2 _ (chebPoint_mem n1 q) _ (chebPoint_mem n1 s)).1
    · rw [hF, hp, chebPoint_last hn0]
      exact (hk.2 _ (chebPoint_mem n1 q) _ (chebPoint_mem n1 s)).2
  have hz1 : ∀ p q s, F p q s ≠ 0 → k1 = none ∨ k1 = some .dirichlet ∧ q ≠ 0 ∧ q ≠ n1 - 1 := by
    intro p q s h
    refine hk1.imp id (fun hk => ⟨hk.1, fun hp => h ?_, fun hp => h ?_⟩)
    · rw [hF, hp, chebPoint_zero]
      exact (hk.2 _ (chebPoint_mem n0 p) _ (chebPoint_mem n1 s)).1
    · rw [hF, hp, chebPoint_last hn1]
      exact (hk.2 _ (chebPoint_mem n0 p) _ (chebPoint_mem n1 s)).2.1
  have hz2 : ∀ p q s, F p q s ≠ 0 → k1 = none ∨ k1 = some .dirichlet ∧ s ≠ 0 ∧ s ≠ n1 - 1 := by
    intro p q s h
    refine hk1.imp id (fun hk => ⟨hk.1, fun hp => h ?_, fun hp => h ?_⟩)
    · rw [hF, hp, chebPoint_zero]
      exact (hk.2 _ (chebPoint_mem n0 p) _ (chebPoint_mem n1 q)).2.2.1
    · rw [hF, hp, chebPoint_last hn1]
      exact (hk.2 _ (chebPoint_mem n0 p) _ (chebPoint_mem n1 q)).2.2.2
  have hzero : ∀ (k : Option CKind) (n : ℕ), (k = none ∨ k = some .dirichlet) →
      (0 : ℝ[X]).degree < n ∧ PolyBC k 0 := by
    rintro k n (rfl | rfl)
    · exact ⟨by simpa using WithBot.bot_lt_coe n, trivial⟩
    · exact ⟨by simpa using WithBot.bot_lt_coe n, by simp [PolyBC]⟩
  obtain ⟨I, hI⟩ : ∃ I : ℕ → ℕ, ∀ r, I r = r / (n1 * n1) := ⟨_, fun _ => rfl⟩
  obtain ⟨J, hJ⟩ : ∃ J : ℕ → ℕ, ∀ r, J r = r % (n1 * n1) / n1 := ⟨_, fun _ => rfl⟩
  obtain ⟨K, hK⟩ : ∃ K : ℕ → ℕ, ∀ r, K r = r % (n1 * n1) % n1 := ⟨_, fun _ => rfl⟩
  have hnn : 0 < n1 * n1 := Nat.mul_pos (by omega) (by omega)
  have hlt : ∀ r < n0 * (n1 * n1), I r < n0 ∧ J r < n1 ∧ K r < n1 := fun r hr => by
    rw [hI, hJ, hK]
    exact ⟨(Nat.div_lt_iff_lt_mul hnn).mpr hr, (Nat.div_lt_iff_lt_mul (by omega)).mpr (Nat.mod_lt _ hnn),
      Nat.mod_lt _ (by omega)⟩
  obtain ⟨P, hP⟩ : ∃ P : ℕ → ℝ[X], ∀ r, P r = C (F (I r) (J r) (K r)) * card n0 (I r) := ⟨_, fun _ => rfl⟩
  obtain ⟨Q, hQ⟩ : ∃ Q : ℕ → ℝ[X], ∀ r, Q r = if F (I r) (J r) (K r) = 0 then 0 else C 1 * card n1 (J r) :=
    ⟨_, fun _ => rfl⟩
  obtain ⟨W, hW⟩ : ∃ W : ℕ → ℝ[X], ∀ r, W r = if F (I r) (J r) (K r) = 0 then 0 else C 1 * card n1 (K r) :=
    ⟨_, fun _ => rfl⟩
  obtain ⟨x, y, hxy, hxyo, hmain⟩ := C59_space3_r2r k0 k1 n0 n1 b0 b1 o0 o1 hb0
    (hm k0 (hk0.imp id And.left)) hs0 hg0 hb1 (hm k1 (hk1.imp id And.left)) hs1 hg1 ho0 ho1 (n0 * (n1 * n1)) P Q W
    (fun r hr => by
      rw [hP]
      by_cases h : F (I r) (J r) (K r) = 0
      · rw [h, C_0, zero_mul]; exact hzero k0 n0 (hk0.imp id And.left)
      · exact card_bc hn0 (hlt r hr).1 (hz0 _ _ _ h) _)
    (fun r hr => by
      rw [hQ]
      by_cases h : F (I r) (J r) (K r) = 0
      · rw [if_pos h]; exact hzero k1 n1 (hk1.imp id And.left)
      · rw [if_neg h]; exact card_bc hn1 (hlt r hr).2.1 (hz1 _ _ _ h) _)
    (fun r hr => by
      rw [hW]
      by_cases h : F (I r) (J r) (K r) = 0
      · rw [if_pos h]; exact hzero k1 n1 (hk1.imp id And.left)
      · rw [if_neg h]; exact card_bc hn1 (hlt r hr).2.2 (hz2 _ _ _ h) _)
    d0 d1 d2 scale hsc hne
  have hco : so.coords = ok [x', y', y'] := by
    show (do let c0 ← (o0.toBase ℝ).coords
             let c1 ← (o1.toBase ℝ).coords
             let c2 ← (o1.toBase ℝ).coords
             pure [c0, c1, c2]) = _
    rw [hx', hy']; rfl
  obtain ⟨rfl, h⟩ := List.cons.inj (Res.ok.inj (hxyo.symm.trans hco))
  obtain ⟨rfl, -⟩ := List.cons.inj h
  -- the interpolant and its derivatives
  have hsum : ∀ (e0 e1 e2 : ℕ) (u t z : ℝ), ∑ r ∈ range (n0 * (n1 * n1)), (derivative^[e0] (P r)).eval u
      * (derivative^[e1] (Q r)).eval t * (derivative^[e2] (W r)).eval z
      = ∑ p ∈ range n0, ∑ q ∈ range n1, ∑ s ∈ range n1, F p q s * (derivative^[e0] (card n0 p)).eval u
        * (derivative^[e1] (card n1 q)).eval t * (derivative^[e2] (card n1 s)).eval z := by
    intro e0 e1 e2 u t z
    rw [← sum_grid3 n0 n1 (fun p q s => F p q s * (derivative^[e0] (card n0 p)).eval u
      * (derivative^[e1] (card n1 q)).eval t * (derivative^[e2] (card n1 s)).eval z)]
    refine Finset.sum_congr rfl (fun r _ => ?_)
    rw [← hI, ← hJ, ← hK, hP, hQ, hW, iterate_derivative_C_mul, eval_mul, eval_C]
    by_cases h : F (I r) (J r) (K r) = 0
    · rw [h]; simp
    · rw [if_neg h, if_neg h, C_1, one_mul, one_mul]
  refine ⟨x, y, hxy, hxyo, fun X hX hXs => ?_⟩
  obtain ⟨v, g, w, hv, hg, hw, hwG, hwe⟩ := hmain X ⟨hX, fun i hi j hj k hk => by
    rw [hXs i hi j hj k hk]
    have := hsum 0 0 0 (nth x i) (nth y j) (nth y k)
    simp only [Function.iterate_zero, id] at this
    dsimp only
    rw [this, Finset.sum_eq_single i, Finset.sum_eq_single j, Finset.sum_eq_single k, hxj i hi, hyj j hj, hyj k hk,
      card_eval_self hn0 hi, card_eval_self hn1 hj, card_eval_self hn1 hk, mul_one, mul_one, mul_one, hF]
    · intro s _ hs
      rw [hyj k hk, card_eval_ne hs hk, mul_zero]
    · intro h; exact absurd (mem_range.mpr hk) h
    · intro q _ hq
      refine Finset.sum_eq_zero (fun s _ => ?_)
      rw [hyj j hj, card_eval_ne hq hj, mul_zero, zero_mul]
    · intro h; exact absurd (mem_range.mpr hj) h
    · intro p _ hp
      refine Finset.sum_eq_zero (fun q _ => Finset.sum_eq_zero (fun s _ => ?_))
      rw [hxj i hi, card_eval_ne hp hi, mul_zero, zero_mul, zero_mul]
    · intro h; exact absurd (mem_range.mpr hi) h⟩
  refine ⟨v, g, w, hv, hg, hw, hwG, fun p hp q hq s hs' => ?_⟩
  have hxp : nth x p ∈ Set.Icc (-1 : ℝ) 1 := by rw [hxj p hp]; exact chebPoint_mem _ _
  have hyq : nth y q ∈ Set.Icc (-1 : ℝ) 1 := by rw [hyj q hq]; exact chebPoint_mem _ _
  have hys : nth y s ∈ Set.Icc (-1 : ℝ) 1 := by rw [hyj s hs']; exact chebPoint_mem _ _
  have e := hwe p hp q hq s hs'
  dsimp only at e
  rw [e, ← Finset.mul_sum, hsum, ← mul_sub, abs_mul]
  refine mul_le_mul_of_nonneg_left ?_ (abs_nonneg _)
  -- the interpolant as a series
  have h1 : HasSum (fun R : ℕ × ℕ × ℕ => a R
        * (derivative^[d0] (Chebyshev.T ℝ (chebAlias n0 R.1 : ℕ))).eval (nth x p)
        * (derivative^[d1] (Chebyshev.T ℝ (chebAlias n1 R.2.1 : ℕ))).eval (nth y q)
        * (derivative^[d2] (Chebyshev.T ℝ (chebAlias n1 R.2.2 : ℕ))).eval (nth y s))
      (∑ i ∈ range n0, ∑ j ∈ range n1, ∑ k ∈ range n1, F i j k * (derivative^[d0] (card n0 i)).eval (nth x p)
        * (derivative^[d1] (card n1 j)).eval (nth y q) * (derivative^[d2] (card n1 k)).eval (nth y s)) := by
    have := hasSum_sum (s := range n0) (fun i _ => hasSum_sum (s := range n1) (fun j _ =>
      hasSum_sum (s := range n1) (fun k _ =>
      (((hf _ (chebPoint_mem n0 i) _ (chebPoint_mem n1 j) _ (chebPoint_mem n1 k)).mul_right
        ((derivative^[d0] (card n0 i)).eval (nth x p))).mul_right
        ((derivative^[d1] (card n1 j)).eval (nth y q))).mul_right
        ((derivative^[d2] (card n1 k)).eval (nth y s)))))
    simp only [hF]
    convert! this using 1
    funext R
    rw [← card_T_deriv hn0, ← card_T_deriv hn1, ← card_T_deriv hn1]
    rw [prod3]
    refine Finset.sum_congr rfl (fun i _ => ?_)
    refine Finset.sum_congr rfl (fun j _ => ?_)
    exact Finset.sum_congr rfl (fun k _ => by ring)
  have hle : ∀ (c u t z : ℝ) (i j k i' j' k' : ℕ), i' ≤ i → j' ≤ j → k' ≤ k → |u| ≤ (i' : ℝ) ^ (2 * d0) →
      |t| ≤ (j' : ℝ) ^ (2 * d1) → |z| ≤ (k' : ℝ) ^ (2 * d2) →
      |c * u * t * z| ≤ |c| * (i : ℝ) ^ (2 * d0) * (j : ℝ) ^ (2 * d1) * (k : ℝ) ^ (2 * d2) := by
    intro c u t z i j k i' j' k' hi hj hk hu ht hz
    have := hu.trans (pow_le_pow_left₀ (Nat.cast_nonneg _) (Nat.cast_le.mpr hi) (2 * d0))
    have := ht.trans (pow_le_pow_left₀ (Nat.cast_nonneg _) (Nat.cast_le.mpr hj) (2 * d1))
    have := hz.trans (pow_le_pow_left₀ (Nat.cast_nonneg _) (Nat.cast_le.mpr hk) (2 * d2))
    rw [abs_mul, abs_mul, abs_mul]
    gcongr
  refine abs_sub_le_tail {R : ℕ × ℕ × ℕ | ¬(R.1 < n0 ∧ R.2.1 < n1 ∧ R.2.2 < n1)} h1 (mixed_cheb3 hs hf hxp hyq hys)
    (fun R hR => ?_) (fun R => ?_) (fun R => ?_) (summable_weight3 hs le_rfl le_rfl le_rfl)
  · obtain ⟨hr0, hr1, hr2⟩ := not_not.mp hR
    rw [chebAlias_of_lt hn0 hr0, chebAlias_of_lt hn1 hr1, chebAlias_of_lt hn1 hr2]
  · exact hle _ _ _ _ _ _ _ _ _ _ (chebAlias_le R.1) (chebAlias_le R.2.1) (chebAlias_le R.2.2)
      (abs_iterate_derivative_T_le _ _ (abs_le.mpr hxp)) (abs_iterate_derivative_T_le _ _ (abs_le.mpr hyq))
      (abs_iterate_derivative_T_le _ _ (abs_le.mpr hys))
  · exact hle _ _ _ _ _ _ _ _ _ _ le_rfl le_rfl le_rfl
      (abs_iterate_derivative_T_le _ _ (abs_le.mpr hxp)) (abs_iterate_derivative_T_le _ _ (abs_le.mpr hyq))
      (abs_iterate_derivative_T_le _ _ (abs_le.mpr hys))

private theorem hasSum_triple {u v w : ℕ → ℝ} {s t r : ℝ} (hu : HasSum u s) (hv : HasSum v t) (hw : HasSum w r)
    (nu : Summable fun k => ‖u k‖) (nv : Summable fun k => ‖v k‖) (nw : Summable fun k => ‖w k‖) :
    HasSum (fun P : ℕ × ℕ × ℕ => u P.1 * (v P.2.1 * w P.2.2)) (s * (t * r)) := by
  have h1 : HasSum (fun P : ℕ × ℕ => v P.1 * w P.2) (t * r) := hv.mul hw (summable_mul_of_summable_norm nv nw)
  have n1 : Summable fun P : ℕ × ℕ => ‖v P.1 * w P.2‖ := nv.mul_norm nw
  have s1 : Summable fun P : ℕ × ℕ × ℕ => u P.1 * (fun Q : ℕ × ℕ => v Q.1 * w Q.2) P.2 :=
    summable_mul_of_summable_norm (g := fun Q : ℕ × ℕ => v Q.1 * w Q.2) nu n1
  exact hu.mul (g := fun Q : ℕ × ℕ => v Q.1 * w Q.2) h1 s1

/-- The rational function `g(x) g(y) g(z)`, `g(x) = (1 - x/2) / (5/4 - x)`, meets the hypotheses for all orders
(with `n0, n1 ≥ 3` and the Chebyshev base on the axes); no coefficient vanishes. -/
example (d0 d1 d2 : ℕ) : ∃ a : ℕ × ℕ × ℕ → ℝ, (∀ P, a P ≠ 0) ∧
    Summable (fun P : ℕ × ℕ × ℕ => |a P| * ((P.1 : ℝ) + 1) ^ (2 * d0) * ((P.2.1 : ℝ) + 1) ^ (2 * d1)
      * ((P.2.2 : ℝ) + 1) ^ (2 * d2)) ∧
    ∀ x ∈ Set.Icc (-1 : ℝ) 1, ∀ y ∈ Set.Icc (-1 : ℝ) 1, ∀ z ∈ Set.Icc (-1 : ℝ) 1, HasSum (fun P : ℕ × ℕ × ℕ =>
      a P * (Chebyshev.T ℝ P.1).eval x * (Chebyshev.T ℝ P.2.1).eval y * (Chebyshev.T ℝ P.2.2).eval z)
      ((1 - x / 2) / (5 / 4 - x) * ((1 - y / 2) / (5 / 4 - y) * ((1 - z / 2) / (5 / 4 - z)))) := by
  refine ⟨fun P => (1 / 2) ^ P.1 * ((1 / 2) ^ P.2.1 * (1 / 2) ^ P.2.2), fun P => by positivity, ?_,
    fun x hx y hy z hz => ?_⟩
  · have hp : ∀ d : ℕ, (0 : ℕ → ℝ) ≤ fun k : ℕ => ((k : ℝ) + 1) ^ d * (1 / 2 : ℝ) ^ k := fun d k => by
      show (0 : ℝ) ≤ ((k : ℝ) + 1) ^ d * (1 / 2 : ℝ) ^ k
      positivity
    have h12 : Summable fun P : ℕ × ℕ => (((P.1 : ℝ) + 1) ^ (2 * d1) * (1 / 2 : ℝ) ^ P.1)
        * (((P.2 : ℝ) + 1) ^ (2 * d2) * (1 / 2 : ℝ) ^ P.2) := (geo_summable (2 * d1)).mul_of_nonneg (geo_summable (2 * d2)) (hp _) (hp _)
    have h := (geo_summable (2 * d0)).mul_of_nonneg h12 (hp _) (fun P => mul_nonneg (hp _ _) (hp _ _))
    refine h.congr (fun P => ?_)
    obtain ⟨i, j, k⟩ := P
    show _ = |(1 / 2 : ℝ) ^ i * ((1 / 2) ^ j * (1 / 2) ^ k)| * ((i : ℝ) + 1) ^ (2 * d0) * ((j : ℝ) + 1) ^ (2 * d1)
      * ((k : ℝ) + 1) ^ (2 * d2)
    rw [abs_of_nonneg (by positivity)]
    ring
  · have hn : ∀ z ∈ Set.Icc (-1 : ℝ) 1, Summable (fun k : ℕ => ‖(1 / 2 : ℝ) ^ k * (Chebyshev.T ℝ k).eval z‖) :=
      fun z hz => Summable.of_nonneg_of_le (fun _ => norm_nonneg _) (fun k => by
        rw [norm_mul, Real.norm_eq_abs, Real.norm_eq_abs, abs_of_nonneg (by positivity)]
        exact mul_le_of_le_one_right (by positivity)
          (Chebyshev.abs_eval_T_real_le_one _ (abs_le.mpr hz))) (summable_geometric_two)
    have h := hasSum_triple (cheb_generating x hx) (cheb_generating y hy) (cheb_generating z hz) (hn x hx) (hn y hy) (hn z hz)
    convert! h using 1
    funext P
    ring

/-- C88 for BaseR2c×BaseR2r×BaseR2r with equal second and third bases: let
`f(x,y,z) = ∑ (A(J,K,L) cos(J x) + B(J,K,L) sin(J x)) T_K(y) T_L(z)` with
`∑ (|A(J,K,L)| + |B(J,K,L)|) (J+1)^d0 (K+1)^(2 d1) (L+1)^(2 d2) < ∞`.  Sample `f` on the grid; `forward`, `gradient` with
orders `d0, d1, d2` and optional scales, and `backward` of the space with the Chebyshev bases return
`∂ₓ^d0 ∂ᵧ^d1 ∂_z^d2 f` on the grid, divided by the scales, up to twice the tail of
`∑ (|A(J,K,L)| + |B(J,K,L)|) J^d0 K^(2 d1) L^(2 d2)` over the triples that are not resolved, `2 J ≥ n0` or `K ≥ n1` or
`L ≥ n1`.  The second and third bases are `chebyshev`, or `cheb_dirichlet` for functions that vanish at `y = ±1` and
at `z = ±1`. -/
theorem C88_space3_r2c_r2r (n0 : ℕ) (bx : Base ℝ ℂ ℂ) (hbx : IsR2c n0 bx) (k1 : Option CKind) (n1 : ℕ)
    (b1 o1 : BaseR2r)
    (hb1 : newR2r k1 n1 = ok b1) (hs1 : RunsSolve k1 n1) (hg1 : RunsGrad k1 n1)
    (ho1 : chebyshev n1 = ok o1) (d0 d1 d2 : ℕ) (A B : ℕ × ℕ × ℕ → ℝ)
    (hs : Summable (fun P : ℕ × ℕ × ℕ => (|A P| + |B P|) * ((P.1 : ℝ) + 1) ^ d0 * ((P.2.1 : ℝ) + 1) ^ (2 * d1)
      * ((P.2.2 : ℝ) + 1) ^ (2 * d2)))
    (f : ℝ → ℝ → ℝ → ℝ) (hf : ∀ x, ∀ y ∈ Set.Icc (-1 : ℝ) 1, ∀ z ∈ Set.Icc (-1 : ℝ) 1,
      HasSum (fun P : ℕ × ℕ × ℕ => (A P * Real.cos (P.1 * x) + B P * Real.sin (P.1 * x))
        * (Chebyshev.T ℝ P.2.1).eval y * (Chebyshev.T ℝ P.2.2).eval z) (f x y z))
    (hk1 : k1 = none ∨ k1 = some .dirichlet ∧ ∀ x, ∀ y ∈ Set.Icc (-1 : ℝ) 1,
      f x (-1) y = 0 ∧ f x 1 y = 0 ∧ f x y (-1) = 0 ∧ f x y 1 = 0)
    (scale : Option (ℝ × ℝ × ℝ)) (hsc : scale ≠ none → d0 < 2 ^ 31 ∧ d1 < 2 ^ 31 ∧ d2 < 2 ^ 31)
    (hne : scale3 d0 d1 d2 scale ≠ 0) :
    let sp : Space3 ℝ ℝ ℝ ℂ ℂ := ⟨bx, b1.toBase ℂ, b1.toBase ℂ⟩
    let so : Space3 ℝ ℝ ℝ ℂ ℂ := ⟨bx, o1.toBase ℂ, o1.toBase ℂ⟩
    ∃ x y, sp.coords = ok [x, y, y] ∧ so.coords = ok [x, y, y] ∧ ∀ X : Arr ℝ, Good X [n0, n1, n1] →
      (∀ p < n0, ∀ q < n1, ∀ s < n1, at_ X [p, q, s] = f (nth x p) (nth y q) (nth y s)) →
      ∃ v g w, sp.forward X = ok v ∧ sp.gradient v d0 d1 d2 scale = ok g ∧ so.backward g = ok w ∧
        Good w [n0, n1, n1] ∧ ∀ p < n0, ∀ q < n1, ∀ s < n1,
          |at_ w [p, q, s] - (scale3 d0 d1 d2 scale)⁻¹ * iteratedDeriv d0 (fun x => iteratedDerivWithin d1
            (fun y' => iteratedDerivWithin d2 (f x y') (Set.Icc (-1) 1) (nth y s)) (Set.Icc (-1) 1) (nth y q)) (nth x p)|
          ≤ |(scale3 d0 d1 d2 scale)⁻¹| * (2 * ∑' P : {P : ℕ × ℕ × ℕ // ¬(2 * P.1 < n0 ∧ P.2.1 < n1 ∧ P.2.2 < n1)},
              (|A P| + |B P|) * (P.1.1 : ℝ) ^ d0 * (P.1.2.1 : ℝ) ^ (2 * d1) * (P.1.2.2 : ℝ) ^ (2 * d2)) := by
  classical
  intro sp so
  have hm : RunsMul k1 := by
    rcases hk1 with rfl | ⟨rfl, -⟩
    · trivial
    · exact Or.inl rfl
  have hn0 : 1 ≤ n0 := hbx.1
  obtain ⟨y', hy', hn1, hyj⟩ := coords_point (T := ℂ) ho1
  obtain ⟨x', hx', hxj⟩ : ∃ x, bx.coords = ok x ∧ ∀ j < n0, nth x j = 2 * Real.pi * j / n0 := by
    obtain ⟨hn, b0, hb, rfl⟩ := hbx
    obtain rfl := r2c_inv hb
    obtain ⟨x, h1, -, h2⟩ := C23_r2c_coords n0 hn ⟨n0, n0 / 2 + 1⟩ rfl
    exact ⟨x, h1, h2⟩
  have habs : ∀ P, |(|A P| + |B P|)| = |A P| + |B P| := fun P => abs_of_nonneg (by positivity)
  have hs' : Summable (fun P : ℕ × ℕ × ℕ => |(|A P| + |B P|)| * ((P.1 : ℝ) + 1) ^ d0
      * ((P.2.1 : ℝ) + 1) ^ (2 * d1) * ((P.2.2 : ℝ) + 1) ^ (2 * d2)) := by simpa only [habs] using hs
  have hW := fun {e0 e1 e2 : ℕ} (h0 : e0 ≤ d0) (h1 : e1 ≤ 2 * d1) (h2 : e2 ≤ 2 * d2) =>
    summable_weight3 (a := fun P => |A P| + |B P|) hs' h0 h1 h2
  simp only [habs] at hW
  have hS0 : Summable (fun P : ℕ × ℕ × ℕ => |A P| + |B P|) := by
    simpa using hW (Nat.zero_le _) (Nat.zero_le _) (Nat.zero_le _)
  have hT1 : ∀ (k q : ℕ), |(Chebyshev.T ℝ k).eval (chebPoint n1 q)| ≤ 1 := fun k q =>
    Chebyshev.abs_eval_T_real_le_one _ (abs_le.mpr (chebPoint_mem n1 q))
  -- the values of the Chebyshev factors on the lines of the grid
  obtain ⟨τ, hτ⟩ : ∃ τ : ℕ → ℕ → ℕ × ℕ × ℕ → ℝ, ∀ q s P, τ q s P
      = (Chebyshev.T ℝ P.2.1).eval (chebPoint n1 q) * (Chebyshev.T ℝ P.2.2).eval (chebPoint n1 s) := ⟨_, fun _ _ _ => rfl⟩
  have hτ1 : ∀ q s P, |τ q s P| ≤ 1 := fun q s P => by
    rw [hτ, abs_mul]
    exact mul_le_one₀ (hT1 _ _) (abs_nonneg _) (hT1 _ _)
  choose A' B' hB' hD hZ using fun q s => four_fiber_interp (fun P : ℕ × ℕ × ℕ => P.1) n0 hn0 (fun P => A P * τ q s P)
    (fun P => B P * τ q s P) (Summable.of_nonneg_of_le (fun P => by positivity) (fun P => by
      rw [abs_mul, abs_mul, ← add_mul]
      exact mul_le_of_le_one_right (by positivity) (hτ1 q s P)) hS0)
  -- the interpolants have the values of `f`
  have hgrid : ∀ q s, ∀ j < n0, trigPoly (n0 / 2) (A' q s) (B' q s) (2 * Real.pi * j / n0)
      = f (2 * Real.pi * j / n0) (chebPoint n1 q) (chebPoint n1 s) := by
    intro q s j hj
    have h1 := hD q s 0 (2 * Real.pi * j / n0)
    rw [iteratedDeriv_zero] at h1
    simp only [tterm_grid hn0] at h1
    refine h1.unique ?_
    have h2 := hf (2 * Real.pi * j / n0) _ (chebPoint_mem n1 q) _ (chebPoint_mem n1 s)
    convert! h2 using 1
    funext P
    rw [hτ]; ring
  have hin : ∀ q < n1, ∀ s < n1, ((k1 = none ∨ k1 = some .dirichlet ∧ q ≠ 0 ∧ q ≠ n1 - 1)
      ∧ (k1 = none ∨ k1 = some .dirichlet ∧ s ≠ 0 ∧ s ≠ n1 - 1))
      ∨ trigPoly (n0 / 2) (A' q s) (B' q s) = fun _ => 0 := by
    intro q hq s hs
    rcases hk1 with h | ⟨h, hb⟩
    · exact Or.inl ⟨Or.inl h, Or.inl h⟩
    · by_cases hqb : (q = 0 ∨ q = n1 - 1) ∨ (s = 0 ∨ s = n1 - 1)
      · right
        refine hZ q s (fun j hj => ?_)
        rw [hgrid q s j hj]
        rcases hqb with (rfl | rfl) | (rfl | rfl)
        · rw [chebPoint_zero]; exact (hb _ _ (chebPoint_mem n1 s)).1
        · rw [chebPoint_last hn1]; exact (hb _ _ (chebPoint_mem n1 s)).2.1
        · rw [chebPoint_zero]; exact (hb _ _ (chebPoint_mem n1 q)).2.2.1
        · rw [chebPoint_last hn1]; exact (hb _ _ (chebPoint_mem n1 q)).2.2.2
      · obtain ⟨h1, h2⟩ := not_or.mp hqb
        exact Or.inl ⟨Or.inr ⟨h, not_or.mp h1⟩, Or.inr ⟨h, not_or.mp h2⟩⟩
  obtain ⟨Q, hQ⟩ : ∃ Q : ℕ → ℝ[X], ∀ q, Q q = if k1 = none ∨ k1 = some .dirichlet ∧ q ≠ 0 ∧ q ≠ n1 - 1 then
    C 1 * card n1 q else 0 := ⟨_, fun _ => rfl⟩
  have hQb : ∀ q < n1, (Q q).degree < n1 ∧ PolyBC k1 (Q q) := fun q hq => by
    rw [hQ]
    split
    · next h => exact card_bc hn1 hq h 1
    · refine ⟨by simpa using WithBot.bot_lt_coe n1, ?_⟩
      rcases hk1 with rfl | ⟨rfl, -⟩
      · trivial
      · simp [PolyBC]
  have hlt : ∀ r < n1 * n1, r / n1 < n1 ∧ r % n1 < n1 := fun r hr =>
    ⟨(Nat.div_lt_iff_lt_mul (by omega)).mpr hr, Nat.mod_lt _ (by omega)⟩
  obtain ⟨x, y, hxy, hxyo, hmain⟩ := C59_space3_r2c_r2r n0 (n0 / 2) (by omega) bx hbx k1 n1 b1 o1 hb1 hm hs1
    hg1 ho1 (n1 * n1) (fun r => A' (r / n1) (r % n1)) (fun r => B' (r / n1) (r % n1)) (fun h r _ => hB' _ _ h)
    (fun r => Q (r / n1)) (fun r => Q (r % n1)) (fun r hr => hQb _ (hlt r hr).1) (fun r hr => hQb _ (hlt r hr).2)
    d0 d1 d2 scale hsc hne
  have hco : so.coords = ok [x', y', y'] := by
    show (do let c0 ← bx.coords
             let c1 ← (o1.toBase ℂ).coords
             let c2 ← (o1.toBase ℂ).coords
             pure [c0, c1, c2]) = _
    rw [hx', hy']; rfl
  obtain ⟨rfl, h⟩ := List.cons.inj (Res.ok.inj (hxyo.symm.trans hco))
  obtain ⟨rfl, -⟩ := List.cons.inj h
  have hsum : ∀ (e0 e1 e2 : ℕ) (u t z : ℝ), ∑ r ∈ range (n1 * n1),
      iteratedDeriv e0 (trigPoly (n0 / 2) (A' (r / n1) (r % n1)) (B' (r / n1) (r % n1))) u
        * (derivative^[e1] (Q (r / n1))).eval t * (derivative^[e2] (Q (r % n1))).eval z
      = ∑ q ∈ range n1, ∑ s ∈ range n1, iteratedDeriv e0 (trigPoly (n0 / 2) (A' q s) (B' q s)) u
        * (derivative^[e1] (card n1 q)).eval t * (derivative^[e2] (card n1 s)).eval z := by
    intro e0 e1 e2 u t z
    rw [sum_grid n1 n1 (fun q s => iteratedDeriv e0 (trigPoly (n0 / 2) (A' q s) (B' q s)) u
        * (derivative^[e1] (Q q)).eval t * (derivative^[e2] (Q s)).eval z)]
    refine Finset.sum_congr rfl (fun q hq => Finset.sum_congr rfl (fun s hs => ?_))
    rcases hin q (mem_range.mp hq) s (mem_range.mp hs) with ⟨h, h'⟩ | h
    · rw [hQ, hQ, if_pos h, if_pos h', C_1, one_mul, one_mul]
    · have : iteratedDeriv e0 (trigPoly (n0 / 2) (A' q s) (B' q s)) u = 0 := by
        rw [h]; simp
      rw [this, zero_mul, zero_mul, zero_mul, zero_mul]
  refine ⟨x, y, hxy, hxyo, fun X hX hXs => ?_⟩
  obtain ⟨v, g, w, hv, hg, hw, hwG, hwe⟩ := hmain X ⟨hX, fun i hi j hj k hk => by
    rw [hXs i hi j hj k hk]
    have := hsum 0 0 0 (nth x i) (nth y j) (nth y k)
    simp only [Function.iterate_zero, id, iteratedDeriv_zero] at this
    dsimp only
    rw [this, Finset.sum_eq_single j, Finset.sum_eq_single k, hyj j hj, hyj k hk, card_eval_self hn1 hj,
      card_eval_self hn1 hk, mul_one, mul_one, hxj i hi, hgrid j k i hi]
    · intro s _ hs
      rw [hyj k hk, card_eval_ne hs hk, mul_zero]
    · intro h; exact absurd (mem_range.mpr hk) h
    · intro q _ hq
      refine Finset.sum_eq_zero (fun s _ => ?_)
      rw [hyj j hj, card_eval_ne hq hj, mul_zero, zero_mul]
    · intro h; exact absurd (mem_range.mpr hj) h⟩
  refine ⟨v, g, w, hv, hg, hw, hwG, fun p hp q hq s hs0 => ?_⟩
  have hyq : nth y q ∈ Set.Icc (-1 : ℝ) 1 := by rw [hyj q hq]; exact chebPoint_mem _ _
  have hys : nth y s ∈ Set.Icc (-1 : ℝ) 1 := by rw [hyj s hs0]; exact chebPoint_mem _ _
  have e := hwe p hp q hq s hs0
  dsimp only at e
  rw [e, ← Finset.mul_sum, hsum, ← mul_sub, abs_mul]
  refine mul_le_mul_of_nonneg_left ?_ (abs_nonneg _)
  -- the interpolant as a series
  have hTq := fun k => abs_iterate_derivative_T_le k d1 (abs_le.mpr hyq)
  have hTs := fun k => abs_iterate_derivative_T_le k d2 (abs_le.mpr hys)
  have hle : ∀ (t u z : ℝ) (j k l j' k' l' : ℕ) (c : ℝ), 0 ≤ c → j' ≤ j → k' ≤ k → l' ≤ l →
      |t| ≤ (j' : ℝ) ^ d0 * c → |u| ≤ (k' : ℝ) ^ (2 * d1) → |z| ≤ (l' : ℝ) ^ (2 * d2) →
      |t * u * z| ≤ c * (j : ℝ) ^ d0 * (k : ℝ) ^ (2 * d1) * (l : ℝ) ^ (2 * d2) := by
    intro t u z j k l j' k' l' c hc hj hk hl ht hu hz
    have h1 := ht.trans (mul_le_mul_of_nonneg_right
      (pow_le_pow_left₀ (Nat.cast_nonneg _) (Nat.cast_le.mpr hj) d0) hc)
    have h2 := hu.trans (pow_le_pow_left₀ (Nat.cast_nonneg _) (Nat.cast_le.mpr hk) (2 * d1))
    have h3 := hz.trans (pow_le_pow_left₀ (Nat.cast_nonneg _) (Nat.cast_le.mpr hl) (2 * d2))
    rw [mul_comm] at h1
    rw [abs_mul, abs_mul]
    gcongr
  have hga : ∀ P : ℕ × ℕ × ℕ, |tterm (A P) (sinSign n0 P.1 * B P) (cosAlias n0 P.1) d0 (nth x p)
      * (derivative^[d1] (Chebyshev.T ℝ (chebAlias n1 P.2.1 : ℕ))).eval (nth y q)
      * (derivative^[d2] (Chebyshev.T ℝ (chebAlias n1 P.2.2 : ℕ))).eval (nth y s)|
      ≤ (|A P| + |B P|) * (P.1 : ℝ) ^ d0 * (P.2.1 : ℝ) ^ (2 * d1) * (P.2.2 : ℝ) ^ (2 * d2) := by
    intro P
    refine hle _ _ _ _ _ _ _ _ _ _ (by positivity) (cosAlias_le_self (n := n0) P.1) (chebAlias_le P.2.1)
      (chebAlias_le P.2.2) ((tterm_abs _ _ _ _ _).trans (mul_le_mul_of_nonneg_left ?_ (by positivity))) (hTq _) (hTs _)
    have h1 : |(sinSign n0 P.1 : ℝ) * B P| ≤ |B P| := by
      rw [abs_mul]; exact mul_le_of_le_one_left (abs_nonneg _) (sinSign_abs n0 P.1)
    linarith
  have hge : ∀ P : ℕ × ℕ × ℕ, |tterm (A P) (B P) P.1 d0 (nth x p)
      * (derivative^[d1] (Chebyshev.T ℝ P.2.1)).eval (nth y q) * (derivative^[d2] (Chebyshev.T ℝ P.2.2)).eval (nth y s)|
      ≤ (|A P| + |B P|) * (P.1 : ℝ) ^ d0 * (P.2.1 : ℝ) ^ (2 * d1) * (P.2.2 : ℝ) ^ (2 * d2) := fun P =>
    hle _ _ _ _ _ _ _ _ _ _ (by positivity) le_rfl le_rfl le_rfl (tterm_abs _ _ _ _ _) (hTq _) (hTs _)
  have h1 : HasSum (fun P : ℕ × ℕ × ℕ => tterm (A P) (sinSign n0 P.1 * B P) (cosAlias n0 P.1) d0 (nth x p)
      * (derivative^[d1] (Chebyshev.T ℝ (chebAlias n1 P.2.1 : ℕ))).eval (nth y q)
      * (derivative^[d2] (Chebyshev.T ℝ (chebAlias n1 P.2.2 : ℕ))).eval (nth y s))
      (∑ j ∈ range n1, ∑ k ∈ range n1, iteratedDeriv d0 (trigPoly (n0 / 2) (A' j k) (B' j k)) (nth x p)
        * (derivative^[d1] (card n1 j)).eval (nth y q) * (derivative^[d2] (card n1 k)).eval (nth y s)) := by
    have h2 := hasSum_sum (s := range n1) (fun j _ => hasSum_sum (s := range n1) (fun k _ =>
      ((hD j k d0 (nth x p)).mul_right ((derivative^[d1] (card n1 j)).eval (nth y q))).mul_right
        ((derivative^[d2] (card n1 k)).eval (nth y s))))
    convert! h2 using 1
    funext P
    rw [← card_T_deriv hn1, ← card_T_deriv hn1, mul_assoc, Finset.sum_mul_sum, Finset.mul_sum]
    refine Finset.sum_congr rfl (fun j _ => ?_)
    rw [Finset.mul_sum]
    refine Finset.sum_congr rfl (fun k _ => ?_)
    rw [tterm_lin (A P * τ j k P), tterm_lin (A P), hτ]
    ring
  refine abs_sub_le_tail {P : ℕ × ℕ × ℕ | ¬(2 * P.1 < n0 ∧ P.2.1 < n1 ∧ P.2.2 < n1)} h1 (mixed_four3 hs' hf hyq hys)
    (fun P hP => ?_) hga hge (hW le_rfl le_rfl le_rfl)
  obtain ⟨hr0, hr1, hr2⟩ := not_not.mp hP
  rw [chebAlias_of_lt hn1 hr1, chebAlias_of_lt hn1 hr2, cosAlias_of_lt hr0]
  congr 2
  by_cases hk0 : P.1 = 0
  · unfold tterm
    rw [hk0]
    rcases Nat.eq_zero_or_pos d0 with h | h
    · subst h; simp
    · simp [zero_pow (show d0 ≠ 0 by omega)]
  · rw [sinSign_of_lt hr0 hk0, Int.cast_one, one_mul]

/-- The function `h(x) g(y) g(z)`, `h(x) = (1 - cos x / 2) / (5/4 - cos x)`, meets the hypotheses for all orders. -/
example (d0 d1 d2 : ℕ) : ∃ A B : ℕ × ℕ × ℕ → ℝ, (∀ P, A P ≠ 0) ∧
    Summable (fun P : ℕ × ℕ × ℕ => (|A P| + |B P|) * ((P.1 : ℝ) + 1) ^ d0 * ((P.2.1 : ℝ) + 1) ^ (2 * d1)
      * ((P.2.2 : ℝ) + 1) ^ (2 * d2)) ∧
    ∀ x, ∀ y ∈ Set.Icc (-1 : ℝ) 1, ∀ z ∈ Set.Icc (-1 : ℝ) 1, HasSum (fun P : ℕ × ℕ × ℕ =>
      (A P * Real.cos (P.1 * x) + B P * Real.sin (P.1 * x)) * (Chebyshev.T ℝ P.2.1).eval y
        * (Chebyshev.T ℝ P.2.2).eval z)
      ((1 - Real.cos x / 2) / (5 / 4 - Real.cos x) * ((1 - y / 2) / (5 / 4 - y) * ((1 - z / 2) / (5 / 4 - z)))) := by
  refine ⟨fun P => (1 / 2) ^ P.1 * ((1 / 2) ^ P.2.1 * (1 / 2) ^ P.2.2), fun _ => 0, fun P => by positivity, ?_,
    fun x y hy z hz => ?_⟩
  · have hp : ∀ d : ℕ, (0 : ℕ → ℝ) ≤ fun k : ℕ => ((k : ℝ) + 1) ^ d * (1 / 2 : ℝ) ^ k := fun d k => by
      show (0 : ℝ) ≤ ((k : ℝ) + 1) ^ d * (1 / 2 : ℝ) ^ k
      positivity
    have h12 : Summable fun P : ℕ × ℕ => (((P.1 : ℝ) + 1) ^ (2 * d1) * (1 / 2 : ℝ) ^ P.1)
        * (((P.2 : ℝ) + 1) ^ (2 * d2) * (1 / 2 : ℝ) ^ P.2) :=
      (geo_summable (2 * d1)).mul_of_nonneg (geo_summable (2 * d2)) (hp _) (hp _)
    have h := (geo_summable d0).mul_of_nonneg h12 (hp _) (fun P => mul_nonneg (hp _ _) (hp _ _))
    refine h.congr (fun P => ?_)
    obtain ⟨i, j, k⟩ := P
    show _ = (|(1 / 2 : ℝ) ^ i * ((1 / 2) ^ j * (1 / 2) ^ k)| + |(0 : ℝ)|) * ((i : ℝ) + 1) ^ d0
      * ((j : ℝ) + 1) ^ (2 * d1) * ((k : ℝ) + 1) ^ (2 * d2)
    rw [abs_of_nonneg (by positivity), abs_zero]
    ring
  · have hn : ∀ z ∈ Set.Icc (-1 : ℝ) 1, Summable (fun k : ℕ => ‖(1 / 2 : ℝ) ^ k * (Chebyshev.T ℝ k).eval z‖) :=
      fun z hz => Summable.of_nonneg_of_le (fun _ => norm_nonneg _) (fun k => by
        rw [norm_mul, Real.norm_eq_abs, Real.norm_eq_abs, abs_of_nonneg (by positivity)]
        exact mul_le_of_le_one_right (by positivity)
          (Chebyshev.abs_eval_T_real_le_one _ (abs_le.mpr hz))) (summable_geometric_two)
    have hx : Real.cos x ∈ Set.Icc (-1 : ℝ) 1 := ⟨Real.neg_one_le_cos x, Real.cos_le_one x⟩
    have h := hasSum_triple (cheb_generating _ hx) (cheb_generating y hy) (cheb_generating z hz) (hn _ hx) (hn y hy) (hn z hz)
    convert! h using 1
    funext P
    have := Chebyshev.T_real_cos x (P.1 : ℤ)
    rw [this]
    simp only [Int.cast_natCast]
    ring

end Verif.Props
