/-
Property C107 in two dimensions: the pseudo-spectral evaluation of a product of derivatives.
-/
import Verif.Props.Product
import Verif.Props.Calculus2

namespace Verif.Props
open Res Spec Finset Polynomial

private theorem sum_flat (R S : ℕ) (F : ℕ → ℕ → ℝ) :
    ∑ r ∈ range R, ∑ s ∈ range S, F r s = ∑ t ∈ range (R * S), F (t / S) (t % S) := by
  rw [← Finset.sum_product' (range R) (range S) F]
  have dm : ∀ r s, s < S → (r * S + s) / S = r ∧ (r * S + s) % S = s := fun r s h => by
    rw [mul_comm]
    exact ⟨by rw [Nat.mul_add_div (by omega), Nat.div_eq_of_lt h, add_zero],
      by rw [Nat.mul_add_mod, Nat.mod_eq_of_lt h]⟩
  refine Finset.sum_bij' (fun a _ => a.1 * S + a.2) (fun t _ => (t / S, t % S)) ?_ ?_ ?_ ?_ ?_
  · rintro ⟨r, s⟩ h
    simp only [mem_product, mem_range] at h ⊢
    nlinarith [h.1, h.2]
  · intro t h
    have h := mem_range.mp h
    have hS : 0 < S := Nat.pos_of_ne_zero (by rintro rfl; simp at h)
    simp only [mem_product, mem_range]
    exact ⟨(Nat.div_lt_iff_lt_mul hS).mpr h, Nat.mod_lt _ hS⟩
  · rintro ⟨r, s⟩ h
    simp only [mem_product, mem_range] at h
    simp only [dm r s h.2]
  · intro t h
    exact Nat.div_add_mod' t S
  · rintro ⟨r, s⟩ h
    simp only [mem_product, mem_range] at h
    simp only [dm r s h.2]

private theorem degree_iter_mul {p q : ℝ[X]} {d e n : ℕ} (h : p.natDegree + q.natDegree < n) :
    (derivative^[d] p * derivative^[e] q).degree < n := by
  have h1 := natDegree_iterate_derivative p d
  have h2 := natDegree_iterate_derivative q e
  have h3 := natDegree_mul_le (p := derivative^[d] p) (q := derivative^[e] q)
  exact lt_of_le_of_lt degree_le_natDegree (by exact_mod_cast (by omega))

/-- C107 in two dimensions, the pseudo-spectral evaluation of a nonlinear term: `f = ∑ P_r(x) Q_r(y)` and
`g = ∑ P'_s(x) Q'_s(y)` are given on the grid of a space (of Chebyshev and composite bases, the boundary
conditions satisfied), whose sizes exceed the sum of the degrees of `f` and `g` in either variable. Transform
both with `forward`, differentiate with `gradient`, return to the grid with the `backward` of the Chebyshev space,
multiply point by point, transform the product with the `forward` of the Chebyshev space: the result is the exact
product, in the sense that its `gradient`s, evaluated by `backward`, are the derivatives of the product at all
grid points. -/
theorem C107_product2 (k0 k1 k0' k1' : Option CKind) (n0 n1 : ℕ) (b0 b1 b0' b1' o0 o1 : BaseR2r)
    (hb0 : newR2r k0 n0 = ok b0) (hm0 : RunsMul k0) (hs0 : RunsSolve k0 n0) (hg0 : RunsGrad k0 n0)
    (hb1 : newR2r k1 n1 = ok b1) (hm1 : RunsMul k1) (hs1 : RunsSolve k1 n1) (hg1 : RunsGrad k1 n1)
    (hb0' : newR2r k0' n0 = ok b0') (hm0' : RunsMul k0') (hs0' : RunsSolve k0' n0) (hg0' : RunsGrad k0' n0)
    (hb1' : newR2r k1' n1 = ok b1') (hm1' : RunsMul k1') (hs1' : RunsSolve k1' n1) (hg1' : RunsGrad k1' n1)
    (ho0 : chebyshev n0 = ok o0) (ho1 : chebyshev n1 = ok o1) (hn0 : 3 ≤ n0) (hn1 : 3 ≤ n1)
    (R S : ℕ) (P Q P' Q' : ℕ → Polynomial ℝ)
    (hP : ∀ r < R, PolyBC k0 (P r)) (hQ : ∀ r < R, PolyBC k1 (Q r))
    (hP' : ∀ s < S, PolyBC k0' (P' s)) (hQ' : ∀ s < S, PolyBC k1' (Q' s))
    (hPd : ∀ r < R, ∀ s < S, (P r).natDegree + (P' s).natDegree < n0)
    (hQd : ∀ r < R, ∀ s < S, (Q r).natDegree + (Q' s).natDegree < n1)
    (hdeg : ∀ r < R, (P r).natDegree < n0 ∧ (Q r).natDegree < n1)
    (hdeg' : ∀ s < S, (P' s).natDegree < n0 ∧ (Q' s).natDegree < n1)
    (d0 d1 d0' d1' e0 e1 : ℕ) :
    let sp : Space2 ℝ ℝ ℝ ℝ := ⟨b0.toBase ℝ, b1.toBase ℝ⟩
    let sp' : Space2 ℝ ℝ ℝ ℝ := ⟨b0'.toBase ℝ, b1'.toBase ℝ⟩
    let so : Space2 ℝ ℝ ℝ ℝ := ⟨o0.toBase ℝ, o1.toBase ℝ⟩
    ∃ x y, so.coords = ok [x, y] ∧ ∀ X Y : Arr ℝ, Good X [n0, n1] → Good Y [n0, n1] →
      (∀ p < n0, ∀ q < n1, at_ X [p, q]
        = ∑ r ∈ range R, (P r).eval (nth x p) * (Q r).eval (nth y q)) →
      (∀ p < n0, ∀ q < n1, at_ Y [p, q]
        = ∑ s ∈ range S, (P' s).eval (nth x p) * (Q' s).eval (nth y q)) →
      ∃ v g a v' g' a', sp.forward X = ok v ∧ sp.gradient v d0 d1 none = ok g ∧ so.backward g = ok a ∧
        sp'.forward Y = ok v' ∧ sp'.gradient v' d0' d1' none = ok g' ∧ so.backward g' = ok a' ∧
        ∀ Z : Arr ℝ, Good Z [n0, n1] → (∀ p < n0, ∀ q < n1, at_ Z [p, q] = at_ a [p, q] * at_ a' [p, q]) →
        ∃ u h w, so.forward Z = ok u ∧ so.gradient u e0 e1 none = ok h ∧ so.backward h = ok w ∧
          Good w [n0, n1] ∧ ∀ p < n0, ∀ q < n1, at_ w [p, q] = ∑ r ∈ range R, ∑ s ∈ range S,
            (derivative^[e0] (derivative^[d0] (P r) * derivative^[d0'] (P' s))).eval (nth x p)
              * (derivative^[e1] (derivative^[d1] (Q r) * derivative^[d1'] (Q' s))).eval (nth y q) := by
  intro sp sp' so
  have dlt : ∀ {p : ℝ[X]} {n : ℕ}, p.natDegree < n → p.degree < n := fun {p n} h =>
    lt_of_le_of_lt degree_le_natDegree (by exact_mod_cast h)
  have one : ∀ d e, scale2 d e none = 1 := fun _ _ => rfl
  obtain ⟨x, y, -, hco, H⟩ := C59_space2_r2r k0 k1 n0 n1 b0 b1 o0 o1 hb0 hm0 hs0 hg0 hb1 hm1 hs1 hg1 ho0 ho1
    R P Q (fun r hr => ⟨dlt (hdeg r hr).1, hP r hr⟩) (fun r hr => ⟨dlt (hdeg r hr).2, hQ r hr⟩) d0 d1 none
    (fun h => absurd rfl h) (by rw [one]; exact one_ne_zero)
  obtain ⟨x', y', -, hco', H'⟩ := C59_space2_r2r k0' k1' n0 n1 b0' b1' o0 o1 hb0' hm0' hs0' hg0' hb1' hm1' hs1'
    hg1' ho0 ho1
    S P' Q' (fun r hr => ⟨dlt (hdeg' r hr).1, hP' r hr⟩) (fun r hr => ⟨dlt (hdeg' r hr).2, hQ' r hr⟩) d0' d1' none
    (fun h => absurd rfl h) (by rw [one]; exact one_ne_zero)
  obtain ⟨rfl, h⟩ := List.cons.inj (Res.ok.inj (hco.symm.trans hco'))
  obtain ⟨rfl, -⟩ := List.cons.inj h
  have hlt : ∀ t < R * S, t / S < R ∧ t % S < S := fun t ht => by
    have hS : 0 < S := Nat.pos_of_ne_zero (by rintro rfl; simp at ht)
    exact ⟨(Nat.div_lt_iff_lt_mul hS).mpr ht, Nat.mod_lt _ hS⟩
  obtain ⟨x', y', -, hco', HZ⟩ := C59_space2_r2r none none n0 n1 o0 o1 o0 o1 ho0 trivial trivial hn0 ho1 trivial
    trivial hn1 ho0 ho1 (R * S) (fun t => derivative^[d0] (P (t / S)) * derivative^[d0'] (P' (t % S)))
    (fun t => derivative^[d1] (Q (t / S)) * derivative^[d1'] (Q' (t % S)))
    (fun t ht => ⟨degree_iter_mul (hPd _ (hlt t ht).1 _ (hlt t ht).2), trivial⟩)
    (fun t ht => ⟨degree_iter_mul (hQd _ (hlt t ht).1 _ (hlt t ht).2), trivial⟩) e0 e1 none
    (fun h => absurd rfl h) (by rw [one]; exact one_ne_zero)
  obtain ⟨rfl, h⟩ := List.cons.inj (Res.ok.inj (hco.symm.trans hco'))
  obtain ⟨rfl, -⟩ := List.cons.inj h
  refine ⟨x, y, hco, fun X Y hX hY hXf hYf => ?_⟩
  obtain ⟨v, g, a, h1, h2, h3, -, h4⟩ := H X hX hXf
  obtain ⟨v', g', a', h1', h2', h3', -, h4'⟩ := H' Y hY hYf
  refine ⟨v, g, a, v', g', a', h1, h2, h3, h1', h2', h3', fun Z hZ hZf => ?_⟩
  obtain ⟨u, hh, w, g1, g2, g3, g4, g5⟩ := HZ Z hZ (fun p hp q hq => by
    rw [hZf p hp q hq, h4 p hp q hq, h4' p hp q hq, one, one, inv_one, one_mul, one_mul, Finset.sum_mul_sum,
      sum_flat]
    refine Finset.sum_congr rfl fun t _ => ?_
    rw [eval_mul, eval_mul]; ring)
  refine ⟨u, hh, w, g1, g2, g3, g4, fun p hp q hq => ?_⟩
  rw [g5 p hp q hq, one, inv_one, one_mul, sum_flat]

-- the hypotheses are met: bases with boundary conditions, and a polynomial product that fits
example : (∃ b0, newR2r (some .dirichlet) 9 = ok b0) ∧ (∃ b1, newR2r (some .neumann) 9 = ok b1) ∧
    (∃ o, chebyshev 9 = ok o) ∧ RunsMul (some .dirichlet) ∧ RunsSolve (some .dirichlet) 9 ∧
    RunsGrad (some .dirichlet) 9 ∧ PolyBC (some .dirichlet) (1 - X ^ 2 : ℝ[X]) ∧
    (1 - X ^ 2 : ℝ[X]).natDegree + (1 - X ^ 2 : ℝ[X]).natDegree < 9 := by
  refine ⟨newR2r_exists (some .dirichlet) 9 (by norm_num) (by rintro c ⟨⟩; decide),
    newR2r_exists (some .neumann) 9 (by norm_num) (by rintro c ⟨⟩; decide),
    newR2r_exists none 9 (by norm_num) (by rintro c ⟨⟩), Or.inl rfl, (by show (5 : ℕ) ≤ 9; norm_num), Or.inl rfl,
    by simp [PolyBC], ?_⟩
  have h : (1 - X ^ 2 : ℝ[X]).natDegree ≤ 2 := by compute_degree
  omega

/-! ### Fourier × Chebyshev -/

/-- the trigonometric polynomials with frequencies up to `M` -/
private def IsTrig (M : ℕ) (f : ℝ → ℝ) : Prop := ∃ A B, f = trigPoly M A B

private theorem IsTrig.add {M : ℕ} {f g : ℝ → ℝ} (hf : IsTrig M f) (hg : IsTrig M g) :
    IsTrig M (fun x => f x + g x) := by
  obtain ⟨A, B, rfl⟩ := hf
  obtain ⟨A', B', rfl⟩ := hg
  refine ⟨fun m => A m + A' m, fun m => B m + B' m, ?_⟩
  funext x
  unfold trigPoly
  rw [← Finset.sum_add_distrib]
  exact Finset.sum_congr rfl fun m _ => by ring

private theorem IsTrig.smul {M : ℕ} {f : ℝ → ℝ} (hf : IsTrig M f) (c : ℝ) : IsTrig M (fun x => c * f x) := by
  obtain ⟨A, B, rfl⟩ := hf
  refine ⟨fun m => c * A m, fun m => c * B m, ?_⟩
  funext x
  unfold trigPoly
  rw [Finset.mul_sum]
  exact Finset.sum_congr rfl fun m _ => by ring

private theorem IsTrig.zero {M : ℕ} : IsTrig M (fun _ => 0) :=
  ⟨fun _ => 0, fun _ => 0, by funext x; simp [trigPoly]⟩

private theorem IsTrig.sum {M : ℕ} {f : ℕ → ℝ → ℝ} {N : ℕ} (h : ∀ i < N, IsTrig M (f i)) :
    IsTrig M (fun x => ∑ i ∈ range N, f i x) := by
  induction N with
  | zero => simpa using IsTrig.zero
  | succ N ih =>
    simp only [Finset.sum_range_succ]
    exact (ih fun i hi => h i (by omega)).add (h N (by omega))

private theorem isTrig_cos {M : ℕ} {k : ℤ} (hk : k.natAbs ≤ M) : IsTrig M (fun x => Real.cos (k * x)) := by
  refine ⟨fun m => if m = k.natAbs then 1 else 0, fun _ => 0, ?_⟩
  funext x
  unfold trigPoly
  rw [Finset.sum_eq_single_of_mem k.natAbs (mem_range.mpr (by omega))
    (fun m _ hm => by dsimp only; rw [if_neg hm]; ring)]
  dsimp only
  rw [if_pos rfl]
  rcases Int.natAbs_eq k with h | h
  · rw [h]; simp
  · rw [h]; simp

private theorem isTrig_sin {M : ℕ} {k : ℤ} (hk : k.natAbs ≤ M) : IsTrig M (fun x => Real.sin (k * x)) := by
  refine ⟨fun _ => 0, fun m => if m = k.natAbs then (if 0 ≤ k then 1 else -1) else 0, ?_⟩
  funext x
  unfold trigPoly
  rw [Finset.sum_eq_single_of_mem k.natAbs (mem_range.mpr (by omega))
    (fun m _ hm => by dsimp only; rw [if_neg hm]; ring)]
  dsimp only
  rw [if_pos rfl]
  by_cases h0 : 0 ≤ k
  · rw [if_pos h0]
    have e : ((k.natAbs : ℕ) : ℝ) = k := by
      rw [← Int.cast_natCast, Int.natAbs_of_nonneg h0]
    rw [e]; ring
  · rw [if_neg h0]
    have e : ((k.natAbs : ℕ) : ℝ) = -k := by
      rw [← Int.cast_natCast, Int.ofNat_natAbs_of_nonpos (le_of_not_ge h0), Int.cast_neg]
    rw [e, show -(k : ℝ) * x = -(k * x) by ring, Real.sin_neg]; ring

private theorem IsTrig.mul {M M' : ℕ} {f g : ℝ → ℝ} (hf : IsTrig M f) (hg : IsTrig M' g) :
    IsTrig (M + M') (fun x => f x * g x) := by
  obtain ⟨A, B, rfl⟩ := hf
  obtain ⟨A', B', rfl⟩ := hg
  unfold trigPoly
  simp only [Finset.sum_mul_sum]
  refine IsTrig.sum fun k hk => IsTrig.sum fun l hl => ?_
  have c1 : IsTrig (M + M') (fun x => Real.cos (((k : ℤ) - (l : ℤ) : ℤ) * x)) := isTrig_cos (by omega)
  have c2 : IsTrig (M + M') (fun x => Real.cos (((k : ℤ) + (l : ℤ) : ℤ) * x)) := isTrig_cos (by omega)
  have s1 : IsTrig (M + M') (fun x => Real.sin (((k : ℤ) - (l : ℤ) : ℤ) * x)) := isTrig_sin (by omega)
  have s2 : IsTrig (M + M') (fun x => Real.sin (((k : ℤ) + (l : ℤ) : ℤ) * x)) := isTrig_sin (by omega)
  have h := (((c1.smul ((A k * A' l + B k * B' l) / 2)).add (c2.smul ((A k * A' l - B k * B' l) / 2))).add
    (s1.smul ((B k * A' l - A k * B' l) / 2))).add (s2.smul ((B k * A' l + A k * B' l) / 2))
  have e : (fun x : ℝ => (A k * Real.cos (k * x) + B k * Real.sin (k * x)) *
      (A' l * Real.cos (l * x) + B' l * Real.sin (l * x))) = fun x =>
      (A k * A' l + B k * B' l) / 2 * Real.cos (((k : ℤ) - (l : ℤ) : ℤ) * x)
      + (A k * A' l - B k * B' l) / 2 * Real.cos (((k : ℤ) + (l : ℤ) : ℤ) * x)
      + (B k * A' l - A k * B' l) / 2 * Real.sin (((k : ℤ) - (l : ℤ) : ℤ) * x)
      + (B k * A' l + A k * B' l) / 2 * Real.sin (((k : ℤ) + (l : ℤ) : ℤ) * x) := by
    funext x
    have e1 : (((k : ℤ) - (l : ℤ) : ℤ) : ℝ) * x = k * x - l * x := by push_cast; ring
    have e2 : (((k : ℤ) + (l : ℤ) : ℤ) : ℝ) * x = k * x + l * x := by push_cast; ring
    rw [e1, e2, Real.cos_sub, Real.cos_add, Real.sin_sub, Real.sin_add]
    ring
  rw [e]
  exact h

private theorem IsTrig.deriv {M : ℕ} {f : ℝ → ℝ} (hf : IsTrig M f) (d : ℕ) : IsTrig M (iteratedDeriv d f) := by
  induction d generalizing f with
  | zero => simpa [iteratedDeriv_zero] using hf
  | succ d ih =>
    rw [iteratedDeriv_succ']
    refine ih ?_
    obtain ⟨A, B, rfl⟩ := hf
    refine ⟨fun m => m * B m, fun m => -(m * A m), ?_⟩
    funext x
    have h : HasDerivAt (trigPoly M A B) (trigPoly M (fun m => m * B m) (fun m => -(m * A m)) x) x := by
      unfold trigPoly
      refine HasDerivAt.fun_sum fun m _ => ?_
      have h1 : HasDerivAt (fun y : ℝ => (m : ℝ) * y) m x := by simpa using (hasDerivAt_id x).const_mul (m : ℝ)
      have h2 := (h1.cos.const_mul (A m)).fun_add (h1.sin.const_mul (B m))
      refine h2.congr_deriv ?_
      dsimp only
      ring
    exact h.deriv

/-- C107 for the space of the Navier-Stokes examples, Fourier × Chebyshev: the same for functions
`f = ∑ t_r(x) Q_r(y)` and `g = ∑ t'_s(x) Q'_s(y)` with trigonometric polynomials of frequencies up to `M` and
`M'`, if `2 (M + M') < n0` and the degrees in `y` sum to less than `n1`. -/
theorem C107_product2_r2c (n0 M M' : ℕ) (hM : 2 * (M + M') < n0) (bx : Base ℝ ℂ ℂ) (hbx : IsR2c n0 bx)
    (k1 k1' : Option CKind) (n1 : ℕ) (b1 b1' o1 : BaseR2r)
    (hb1 : newR2r k1 n1 = ok b1) (hm1 : RunsMul k1) (hs1 : RunsSolve k1 n1) (hg1 : RunsGrad k1 n1)
    (hb1' : newR2r k1' n1 = ok b1') (hm1' : RunsMul k1') (hs1' : RunsSolve k1' n1) (hg1' : RunsGrad k1' n1)
    (ho1 : chebyshev n1 = ok o1) (hn1 : 3 ≤ n1)
    (R S : ℕ) (A B A' B' : ℕ → ℕ → ℝ) (Q Q' : ℕ → Polynomial ℝ)
    (hQ : ∀ r < R, PolyBC k1 (Q r)) (hQ' : ∀ s < S, PolyBC k1' (Q' s))
    (hQd : ∀ r < R, ∀ s < S, (Q r).natDegree + (Q' s).natDegree < n1)
    (hdeg : ∀ r < R, (Q r).natDegree < n1) (hdeg' : ∀ s < S, (Q' s).natDegree < n1)
    (d0 d1 d0' d1' e0 e1 : ℕ) :
    let sp : Space2 ℝ ℝ ℂ ℂ := ⟨bx, b1.toBase ℂ⟩
    let sp' : Space2 ℝ ℝ ℂ ℂ := ⟨bx, b1'.toBase ℂ⟩
    let so : Space2 ℝ ℝ ℂ ℂ := ⟨bx, o1.toBase ℂ⟩
    ∃ x y, so.coords = ok [x, y] ∧ ∀ X Y : Arr ℝ, Good X [n0, n1] → Good Y [n0, n1] →
      (∀ p < n0, ∀ q < n1, at_ X [p, q]
        = ∑ r ∈ range R, trigPoly M (A r) (B r) (nth x p) * (Q r).eval (nth y q)) →
      (∀ p < n0, ∀ q < n1, at_ Y [p, q]
        = ∑ s ∈ range S, trigPoly M' (A' s) (B' s) (nth x p) * (Q' s).eval (nth y q)) →
      ∃ v g a v' g' a', sp.forward X = ok v ∧ sp.gradient v d0 d1 none = ok g ∧ so.backward g = ok a ∧
        sp'.forward Y = ok v' ∧ sp'.gradient v' d0' d1' none = ok g' ∧ so.backward g' = ok a' ∧
        ∀ Z : Arr ℝ, Good Z [n0, n1] → (∀ p < n0, ∀ q < n1, at_ Z [p, q] = at_ a [p, q] * at_ a' [p, q]) →
        ∃ u h w, so.forward Z = ok u ∧ so.gradient u e0 e1 none = ok h ∧ so.backward h = ok w ∧
          Good w [n0, n1] ∧ ∀ p < n0, ∀ q < n1, at_ w [p, q] = ∑ r ∈ range R, ∑ s ∈ range S,
            iteratedDeriv e0 (fun t => iteratedDeriv d0 (trigPoly M (A r) (B r)) t
                * iteratedDeriv d0' (trigPoly M' (A' s) (B' s)) t) (nth x p)
              * (derivative^[e1] (derivative^[d1] (Q r) * derivative^[d1'] (Q' s))).eval (nth y q) := by
  intro sp sp' so
  have dlt : ∀ {p : ℝ[X]} {n : ℕ}, p.natDegree < n → p.degree < n := fun {p n} h =>
    lt_of_le_of_lt degree_le_natDegree (by exact_mod_cast h)
  have one : ∀ d e, scale2 d e none = 1 := fun _ _ => rfl
  obtain ⟨x, y, -, hco, H⟩ := C59_space2_r2c_r2r n0 M (by omega) bx hbx k1 n1 b1 o1 hb1 hm1 hs1 hg1 ho1
    R A B (fun h => by omega) Q (fun r hr => ⟨dlt (hdeg r hr), hQ r hr⟩) d0 d1 none
    (fun h => absurd rfl h) (by rw [one]; exact one_ne_zero)
  obtain ⟨x', y', -, hco', H'⟩ := C59_space2_r2c_r2r n0 M' (by omega) bx hbx k1' n1 b1' o1 hb1' hm1' hs1' hg1' ho1
    S A' B' (fun h => by omega) Q' (fun r hr => ⟨dlt (hdeg' r hr), hQ' r hr⟩) d0' d1' none
    (fun h => absurd rfl h) (by rw [one]; exact one_ne_zero)
  obtain ⟨rfl, h⟩ := List.cons.inj (Res.ok.inj (hco.symm.trans hco'))
  obtain ⟨rfl, -⟩ := List.cons.inj h
  have hlt : ∀ t < R * S, t / S < R ∧ t % S < S := fun t ht => by
    have hS : 0 < S := Nat.pos_of_ne_zero (by rintro rfl; simp at ht)
    exact ⟨(Nat.div_lt_iff_lt_mul hS).mpr ht, Nat.mod_lt _ hS⟩
  -- the products of the derivatives are trigonometric polynomials
  have ht : ∀ t : ℕ, ∃ C D : ℕ → ℝ, (fun z => iteratedDeriv d0 (trigPoly M (A (t / S)) (B (t / S))) z
      * iteratedDeriv d0' (trigPoly M' (A' (t % S)) (B' (t % S))) z) = trigPoly (M + M') C D := fun t =>
    (IsTrig.deriv ⟨_, _, rfl⟩ d0).mul (IsTrig.deriv ⟨_, _, rfl⟩ d0')
  choose C D hCD using ht
  obtain ⟨x', y', -, hco', HZ⟩ := C59_space2_r2c_r2r n0 (M + M') (by omega) bx hbx none n1 o1 o1 ho1 trivial
    trivial hn1 ho1 (R * S) C D (fun h => by omega)
    (fun t => derivative^[d1] (Q (t / S)) * derivative^[d1'] (Q' (t % S)))
    (fun t ht => ⟨degree_iter_mul (hQd _ (hlt t ht).1 _ (hlt t ht).2), trivial⟩) e0 e1 none
    (fun h => absurd rfl h) (by rw [one]; exact one_ne_zero)
  obtain ⟨rfl, h⟩ := List.cons.inj (Res.ok.inj (hco.symm.trans hco'))
  obtain ⟨rfl, -⟩ := List.cons.inj h
  refine ⟨x, y, hco, fun X Y hX hY hXf hYf => ?_⟩
  obtain ⟨v, g, a, h1, h2, h3, -, h4⟩ := H X hX hXf
  obtain ⟨v', g', a', h1', h2', h3', -, h4'⟩ := H' Y hY hYf
  refine ⟨v, g, a, v', g', a', h1, h2, h3, h1', h2', h3', fun Z hZ hZf => ?_⟩
  obtain ⟨u, hh, w, g1, g2, g3, g4, g5⟩ := HZ Z hZ (fun p hp q hq => by
    rw [hZf p hp q hq, h4 p hp q hq, h4' p hp q hq, one, one, inv_one, one_mul, one_mul, Finset.sum_mul_sum,
      sum_flat]
    refine Finset.sum_congr rfl fun t _ => ?_
    rw [eval_mul, ← hCD t]; ring)
  refine ⟨u, hh, w, g1, g2, g3, g4, fun p hp q hq => ?_⟩
  rw [g5 p hp q hq, one, inv_one, one_mul, sum_flat]
  refine Finset.sum_congr rfl fun t _ => ?_
  rw [hCD t]

-- the hypotheses are met
example : 2 * (3 + 4) < 16 ∧ (∃ bx, IsR2c 16 bx) ∧ (∃ b1, newR2r (some .dirichlet) 9 = ok b1) ∧
    (∃ o1, chebyshev 9 = ok o1) :=
  ⟨by norm_num, (isR2c_exists (n := 16) (by norm_num)).imp fun _ h => h.1,
    newR2r_exists (some .dirichlet) 9 (by norm_num) (by rintro c ⟨⟩; decide),
    newR2r_exists none 9 (by norm_num) (by rintro c ⟨⟩)⟩

end Verif.Props
