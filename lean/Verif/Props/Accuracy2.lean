/-
Property C88: spectral accuracy in two dimensions.
-/
import Verif.Proof.Alias2
import Verif.Props.Calculus2
import Verif.Props.Accuracy

namespace Verif.Props
open Res Spec Finset Polynomial

theorem sum_grid (n0 n1 : ℕ) (G : ℕ → ℕ → ℝ) :
    ∑ r ∈ range (n0 * n1), G (r / n1) (r % n1) = ∑ p ∈ range n0, ∑ q ∈ range n1, G p q := by
  rw [← Finset.sum_product']
  refine Finset.sum_nbij' (fun r => (r / n1, r % n1)) (fun p => p.1 * n1 + p.2) ?_ ?_ ?_ ?_ ?_
  · intro r hr
    have hr' := mem_range.mp hr
    have hn : 0 < n1 := by
      rcases Nat.eq_zero_or_pos n1 with h | h
      · subst h; simp at hr'
      · exact h
    exact mem_product.mpr ⟨mem_range.mpr ((Nat.div_lt_iff_lt_mul hn).mpr hr'), mem_range.mpr (Nat.mod_lt _ hn)⟩
  · intro p hp
    obtain ⟨h1, h2⟩ := mem_product.mp hp
    have h1 := mem_range.mp h1
    have h2 := mem_range.mp h2
    refine mem_range.mpr ?_
    calc p.1 * n1 + p.2 < (p.1 + 1) * n1 := by rw [Nat.add_mul, Nat.one_mul]; omega
      _ ≤ n0 * n1 := Nat.mul_le_mul_right _ h1
  · intro r _
    exact Nat.div_add_mod' r n1
  · intro p hp
    have h2 := mem_range.mp (mem_product.mp hp).2
    refine Prod.ext ?_ ?_
    · show (p.1 * n1 + p.2) / n1 = p.1
      rw [Nat.add_comm, Nat.add_mul_div_right _ _ (by omega), Nat.div_eq_of_lt h2, Nat.zero_add]
    · show (p.1 * n1 + p.2) % n1 = p.2
      rw [Nat.add_comm, Nat.add_mul_mod_self_right, Nat.mod_eq_of_lt h2]
  · intro r _; rfl

/-- The points of the Chebyshev bases. -/
theorem coords_point {T : Type} [AddCommGroup T] [Module ℝ T] {n : ℕ} {o : BaseR2r}
    (ho : chebyshev n = ok o) : ∃ x, (o.toBase T).coords = ok x ∧ 2 ≤ n ∧ ∀ j < n, nth x j = chebPoint n j := by
  obtain ⟨hn, rfl⟩ := chebyshev_inv ho
  obtain ⟨x, hx, -, hxj, -⟩ := C01_coords n _ (cheb_new_ok hn)
  exact ⟨x, hx, hn, hxj⟩

/-- The cardinal functions of the interior points vanish at the end points. -/
theorem card_bc {k : Option CKind} {n p : ℕ} (hn : 2 ≤ n) (hp : p < n)
    (hk : k = none ∨ k = some .dirichlet ∧ p ≠ 0 ∧ p ≠ n - 1) (s : ℝ) :
    (C s * card n p).degree < n ∧ PolyBC k (C s * card n p) := by
  refine ⟨by rw [← smul_eq_C_mul]; exact lt_of_le_of_lt (degree_smul_le _ _) (card_degree hn hp), ?_⟩
  rcases hk with rfl | ⟨rfl, h0, h1⟩
  · trivial
  · constructor
    · rw [eval_mul, ← chebPoint_last hn, card_eval_ne h1 (by omega), mul_zero]
    · rw [eval_mul, ← chebPoint_zero n, card_eval_ne h0 (by omega), mul_zero]

/-- C88 for `cheb_dirichlet(n)` in one dimension (for `chebyshev(n)` see C80): from the samples of a
function that vanishes at the end points, `forward`, `gradient` and `backward` of the Chebyshev base
compute the derivative on the grid up to twice the tail of `∑ |aₖ| k^(2 d)`, `k ≥ n`. -/
theorem C88_dirichlet (n : ℕ) (b o : BaseR2r) (hb : newR2r (some .dirichlet) n = ok b)
    (hsv : RunsSolve (some .dirichlet) n) (ho : chebyshev n = ok o) (d : ℕ) (a : ℕ → ℝ)
    (hs : Summable (fun k : ℕ => |a k| * (k : ℝ) ^ (2 * d))) (f : ℝ → ℝ)
    (hf : ∀ x ∈ Set.Icc (-1 : ℝ) 1, HasSum (fun k : ℕ => a k * (Chebyshev.T ℝ k).eval x) (f x))
    (h0 : f (-1) = 0) (h1 : f 1 = 0) (out out' out'' : List ℝ)
    (h : out.length = (b.toBase ℝ).lenSpec) (h' : out'.length = (b.toBase ℝ).lenOrth)
    (h'' : out''.length = (o.toBase ℝ).lenPhys) :
    ∃ x v g w, (b.toBase ℝ).coords = ok x ∧ (b.toBase ℝ).forwardSlice (x.map f) out = ok v ∧
      (b.toBase ℝ).gradientSlice v out' d = ok g ∧ (o.toBase ℝ).backwardSlice g out'' = ok w ∧
      w.length = n ∧ ∀ j < n, |nth w j - iteratedDerivWithin d f (Set.Icc (-1) 1) (nth x j)|
          ≤ 2 * ∑' k : {k : ℕ // ¬ k < n}, |a k| * (k.1 : ℝ) ^ (2 * d) := by
  obtain ⟨x', hx', hn, hxj⟩ := coords_point (T := ℝ) ho
  set p : ℝ[X] := ∑ i ∈ range n, C (f (chebPoint n i)) * card n i with hp
  have hpd : p.degree < n ∧ PolyBC (some .dirichlet) p := by
    have hev : ∀ j < n, p.eval (chebPoint n j) = f (chebPoint n j) := fun j hj => by
      rw [hp, eval_finset_sum, Finset.sum_eq_single j]
      · rw [eval_mul, eval_C, card_eval_self hn hj, mul_one]
      · intro i _ hi
        rw [eval_mul, card_eval_ne hi hj, mul_zero]
      · intro h; exact absurd (mem_range.mpr hj) h
    refine ⟨?_, ?_, ?_⟩
    · refine lt_of_le_of_lt (degree_sum_le _ _) ((Finset.sup_lt_iff (WithBot.bot_lt_coe n)).mpr (fun i hi => ?_))
      exact (card_bc (k := none) hn (mem_range.mp hi) (Or.inl rfl) _).1
    · rw [← chebPoint_last hn, hev _ (by omega), chebPoint_last hn, h1]
    · rw [← chebPoint_zero n, hev _ (by omega), chebPoint_zero, h0]
  have hev : ∀ j < n, p.eval (chebPoint n j) = f (chebPoint n j) := fun j hj => by
    rw [hp, eval_finset_sum, Finset.sum_eq_single j]
    · rw [eval_mul, eval_C, card_eval_self hn hj, mul_one]
    · intro i _ hi
      rw [eval_mul, card_eval_ne hi hj, mul_zero]
    · intro h; exact absurd (mem_range.mpr hj) h
  obtain ⟨x, v, g, hx, hxo, hv, hg, hw⟩ := C59_composite (some .dirichlet) n b o hb (Or.inl rfl) hsv
    (Or.inl rfl) ho p hpd.1 hpd.2 d out out' out'' h h' h''
  obtain rfl : x = x' := by rw [hxo] at hx'; exact Res.ok.inj hx'
  have hxl : x.length = n := by
    obtain ⟨-, rfl⟩ := chebyshev_inv ho
    obtain ⟨x2, hx2, hl, -⟩ := C01_coords n _ (cheb_new_ok hn)
    obtain rfl : x = x2 := Res.ok.inj (hxo.symm.trans hx2)
    exact hl
  have hmap : x.map p.eval = x.map f := ext_nth (by simp) (fun j hj => by
    have hj' : j < n := by simpa [hxl] using hj
    rw [nth_map _ _ _ (by omega), nth_map _ _ _ (by omega), hxj j hj', hev j hj'])
  rw [hmap] at hv
  refine ⟨x, v, g, _, hx, hv, hg, hw, by simpa using hxl, fun j hj => ?_⟩
  have hxm : nth x j ∈ Set.Icc (-1 : ℝ) 1 := by rw [hxj j hj]; exact chebPoint_mem _ _
  rw [nth_map _ _ _ (by omega), iteratedDerivWithin_chebSeries hs hf _ hxm]
  have h2 : HasSum (fun k : ℕ => a k * (derivative^[d] (Chebyshev.T ℝ (chebAlias n k : ℕ))).eval (nth x j))
      ((derivative^[d] p).eval (nth x j)) := by
    have := hasSum_sum (s := range n) (fun i _ =>
      (hf _ (chebPoint_mem n i)).mul_right ((derivative^[d] (card n i)).eval (nth x j)))
    convert! this using 1
    · funext k
      rw [← card_T_deriv hn, Finset.mul_sum]
      exact Finset.sum_congr rfl (fun i _ => by ring)
    · rw [hp, iterate_derivative_sum, eval_finset_sum]
      exact Finset.sum_congr rfl (fun i _ => by rw [iterate_derivative_C_mul, eval_mul, eval_C])
  refine abs_sub_le_tail {k : ℕ | ¬ k < n} h2 (chebSeries_hasSum hs (abs_le.mpr hxm))
    (fun k hk => ?_) (fun k => ?_) (fun k => chebTerm_le a d k (abs_le.mpr hxm)) hs
  · rw [chebAlias_of_lt hn (not_not.mp hk)]
  · refine (chebTerm_le (fun _ => a k) d (chebAlias n k) (abs_le.mpr hxm)).trans ?_
    exact mul_le_mul_of_nonneg_left
      (pow_le_pow_left₀ (Nat.cast_nonneg _) (by exact_mod_cast chebAlias_le k) _) (abs_nonneg _)

/-- `(1 - x/2) / (5/4 - x) - 4/3 - 2 x / 3` vanishes at the end points and meets the hypotheses. -/
example : ∃ (a : ℕ → ℝ) (f : ℝ → ℝ), Summable (fun k : ℕ => |a k| * (k : ℝ) ^ (2 * 0)) ∧ (∀ k, a k ≠ 0) ∧
    (∀ x ∈ Set.Icc (-1 : ℝ) 1, HasSum (fun k : ℕ => a k * (Chebyshev.T ℝ k).eval x) (f x)) ∧
    f (-1) = 0 ∧ f 1 = 0 := by
  have he : ∀ x, HasSum (fun k : ℕ => (if k = 0 then (4 / 3 : ℝ) else if k = 1 then 2 / 3 else 0)
      * (Chebyshev.T ℝ k).eval x) (4 / 3 + 2 / 3 * x) := by
    intro x
    have h := hasSum_sum_of_ne_finset_zero (L := .unconditional ℕ) (s := range 2)
      (f := fun k : ℕ => (if k = 0 then (4 / 3 : ℝ) else if k = 1 then 2 / 3 else 0)
        * (Chebyshev.T ℝ k).eval x) (fun k hk => by
        have : 1 < k := by simpa using hk
        rw [if_neg (by omega), if_neg (by omega), zero_mul])
    simpa [Finset.sum_range_succ] using h
  have hz : Summable (fun k : ℕ => |if k = 0 then (4 / 3 : ℝ) else if k = 1 then 2 / 3 else 0|) :=
    summable_of_ne_finset_zero (s := range 2) (fun k hk => by
      have : 1 < k := by simpa using hk
      rw [if_neg (by omega), if_neg (by omega), abs_zero])
  refine ⟨fun k => (1 / 2) ^ k - (if k = 0 then (4 / 3 : ℝ) else if k = 1 then 2 / 3 else 0),
    fun x => (1 - x / 2) / (5 / 4 - x) - (4 / 3 + 2 / 3 * x), ?_, fun k => ?_, fun x hx => ?_, by norm_num, by norm_num⟩
  · refine Summable.of_nonneg_of_le (fun k => by positivity) (fun k => ?_) (summable_geometric_two.add hz)
    rw [Nat.mul_zero, pow_zero, mul_one]
    refine (abs_sub _ _).trans (le_of_eq ?_)
    rw [abs_of_nonneg (show (0 : ℝ) ≤ (1 / 2) ^ k by positivity)]
  · dsimp only
    split
    · next h => subst h; norm_num
    · split
      · next h => subst h; norm_num
      · rw [sub_zero]; positivity
  · have := (cheb_generating x hx).sub (he x)
    convert! this using 1
    funext k
    ring

/-- C88 for BaseR2r×BaseR2r: let `f(x,y) = ∑ a(J,K) T_J(x) T_K(y)` with
`∑ |a(J,K)| (J+1)^(2 d0) (K+1)^(2 d1) < ∞`.  Sample `f` on the grid; `forward`, `gradient` with orders
`d0, d1` and optional scales, and `backward` of the Chebyshev space return `∂ₓ^d0 ∂ᵧ^d1 f` on the grid,
divided by the scales, up to twice the tail of `∑ |a(J,K)| J^(2 d0) K^(2 d1)` over the pairs that are
not resolved, `J ≥ n0` or `K ≥ n1`.  The bases are `chebyshev`, or `cheb_dirichlet` for functions that
vanish at the ends of this axis. -/
theorem C88_space2_r2r (k0 k1 : Option CKind) (n0 n1 : ℕ) (b0 b1 o0 o1 : BaseR2r)
    (hb0 : newR2r k0 n0 = ok b0) (hs0 : RunsSolve k0 n0) (hg0 : RunsGrad k0 n0)
    (hb1 : newR2r k1 n1 = ok b1) (hs1 : RunsSolve k1 n1) (hg1 : RunsGrad k1 n1)
    (ho0 : chebyshev n0 = ok o0) (ho1 : chebyshev n1 = ok o1)
    (d0 d1 : ℕ) (a : ℕ × ℕ → ℝ)
    (hs : Summable (fun P : ℕ × ℕ => |a P| * ((P.1 : ℝ) + 1) ^ (2 * d0) * ((P.2 : ℝ) + 1) ^ (2 * d1)))
    (f : ℝ → ℝ → ℝ) (hf : ∀ x ∈ Set.Icc (-1 : ℝ) 1, ∀ y ∈ Set.Icc (-1 : ℝ) 1, HasSum (fun P : ℕ × ℕ =>
      a P * (Chebyshev.T ℝ P.1).eval x * (Chebyshev.T ℝ P.2).eval y) (f x y))
    (hk0 : k0 = none ∨ k0 = some .dirichlet ∧ ∀ y ∈ Set.Icc (-1 : ℝ) 1, f (-1) y = 0 ∧ f 1 y = 0)
    (hk1 : k1 = none ∨ k1 = some .dirichlet ∧ ∀ x ∈ Set.Icc (-1 : ℝ) 1, f x (-1) = 0 ∧ f x 1 = 0)
    (scale : Option (ℝ × ℝ)) (hsc : scale ≠ none → d0 < 2 ^ 31 ∧ d1 < 2 ^ 31)
    (hne : scale2 d0 d1 scale ≠ 0) :
    let sp : Space2 ℝ ℝ ℝ ℝ := ⟨b0.toBase ℝ, b1.toBase ℝ⟩
    let so : Space2 ℝ ℝ ℝ ℝ := ⟨o0.toBase ℝ, o1.toBase ℝ⟩
    ∃ x y, sp.coords = ok [x, y] ∧ so.coords = ok [x, y] ∧ ∀ X : Arr ℝ, Good X [n0, n1] →
      (∀ p < n0, ∀ q < n1, at_ X [p, q] = f (nth x p) (nth y q)) →
      ∃ v g w, sp.forward X = ok v ∧ sp.gradient v d0 d1 scale = ok g ∧ so.backward g = ok w ∧
        Good w [n0, n1] ∧ ∀ p < n0, ∀ q < n1,
          |at_ w [p, q] - (scale2 d0 d1 scale)⁻¹ * iteratedDerivWithin d0
            (fun x => iteratedDerivWithin d1 (f x) (Set.Icc (-1) 1) (nth y q)) (Set.Icc (-1) 1) (nth x p)|
          ≤ |(scale2 d0 d1 scale)⁻¹| * (2 * ∑' P : {P : ℕ × ℕ // ¬(P.1 < n0 ∧ P.2 < n1)},
              |a P| * (P.1.1 : ℝ) ^ (2 * d0) * (P.1.2 : ℝ) ^ (2 * d1)) := by
  classical
  intro sp so
  have hm : ∀ k : Option CKind, k = none ∨ k = some .dirichlet → RunsMul k := by
    rintro k (rfl | rfl)
    · trivial
    · exact Or.inl rfl
  obtain ⟨x', hx', hn0, hxj⟩ := coords_point (T := ℝ) ho0
  obtain ⟨y', hy', hn1, hyj⟩ := coords_point (T := ℝ) ho1
  set F : ℕ → ℕ → ℝ := fun p q => f (chebPoint n0 p) (chebPoint n1 q) with hF
  have hz0 : ∀ p q, F p q ≠ 0 → k0 = none ∨ k0 = some .dirichlet ∧ p ≠ 0 ∧ p ≠ n0 - 1 := by
    intro p q h
    refine hk0.imp id (fun hk => ⟨hk.1, fun hp => h ?_, fun hp => h ?_⟩)
    · rw [hF]; dsimp only
      rw [hp, chebPoint_zero]
      exact (hk.2 _ (chebPoint_mem n1 q)).1
    · rw [hF]; dsimp only
      rw [hp, chebPoint_last hn0]
      exact (hk.2 _ (chebPoint_mem n1 q)).2
  have hz1 : ∀ p q, F p q ≠ 0 → k1 = none ∨ k1 = some .dirichlet ∧ q ≠ 0 ∧ q ≠ n1 - 1 := by
    intro p q h
    refine hk1.imp id (fun hk => ⟨hk.1, fun hp => h ?_, fun hp => h ?_⟩)
    · rw [hF]; dsimp only
      rw [hp, chebPoint_zero]
      exact (hk.2 _ (chebPoint_mem n0 p)).1
    · rw [hF]; dsimp only
      rw [hp, chebPoint_last hn1]
      exact (hk.2 _ (chebPoint_mem n0 p)).2
  have hzero : ∀ (k : Option CKind) (n : ℕ), (k = none ∨ k = some .dirichlet) →
      (0 : ℝ[X]).degree < n ∧ PolyBC k 0 := by
    rintro k n (rfl | rfl)
    · exact ⟨by simpa using WithBot.bot_lt_coe n, trivial⟩
    · exact ⟨by simpa using WithBot.bot_lt_coe n, by simp [PolyBC]⟩
  set P : ℕ → ℝ[X] := fun r => C (F (r / n1) (r % n1)) * card n0 (r / n1) with hP
  set Q : ℕ → ℝ[X] := fun r => if F (r / n1) (r % n1) = 0 then 0 else C 1 * card n1 (r % n1) with hQ
  have hlt : ∀ r < n0 * n1, r / n1 < n0 ∧ r % n1 < n1 := fun r hr =>
    ⟨(Nat.div_lt_iff_lt_mul (by omega)).mpr hr, Nat.mod_lt _ (by omega)⟩
  obtain ⟨x, y, hxy, hxyo, hmain⟩ := C59_space2_r2r k0 k1 n0 n1 b0 b1 o0 o1 hb0
    (hm k0 (hk0.imp id And.left)) hs0 hg0 hb1 (hm k1 (hk1.imp id And.left)) hs1 hg1 ho0 ho1 (n0 * n1) P Q
    (fun r hr => by
      rw [hP]; dsimp only
      by_cases h : F (r / n1) (r % n1) = 0
      · rw [h, C_0, zero_mul]; exact hzero k0 n0 (hk0.imp id And.left)
      · exact card_bc hn0 (hlt r hr).1 (hz0 _ _ h) _)
    (fun r hr => by
      rw [hQ]; dsimp only
      by_cases h : F (r / n1) (r % n1) = 0
      · rw [if_pos h]; exact hzero k1 n1 (hk1.imp id And.left)
      · rw [if_neg h]; exact card_bc hn1 (hlt r hr).2 (hz1 _ _ h) _)
    d0 d1 scale hsc hne
  have hco : so.coords = ok [x', y'] := by
    show (do let c0 ← (o0.toBase ℝ).coords
             let c1 ← (o1.toBase ℝ).coords
             pure [c0, c1]) = _
    rw [hx', hy']; rfl
  obtain ⟨rfl, h⟩ := List.cons.inj (Res.ok.inj (hxyo.symm.trans hco))
  obtain ⟨rfl, -⟩ := List.cons.inj h
  -- the interpolant and its derivatives
  have hsum : ∀ (e0 e1 : ℕ) (u t : ℝ), ∑ r ∈ range (n0 * n1), (derivative^[e0] (P r)).eval u
      * (derivative^[e1] (Q r)).eval t = ∑ p ∈ range n0, ∑ q ∈ range n1,
        F p q * (derivative^[e0] (card n0 p)).eval u * (derivative^[e1] (card n1 q)).eval t := by
    intro e0 e1 u t
    rw [← sum_grid n0 n1 (fun p q => F p q * (derivative^[e0] (card n0 p)).eval u
      * (derivative^[e1] (card n1 q)).eval t)]
    refine Finset.sum_congr rfl (fun r _ => ?_)
    rw [hP, hQ]; dsimp only
    rw [iterate_derivative_C_mul, eval_mul, eval_C]
    by_cases h : F (r / n1) (r % n1) = 0
    · rw [h]; simp
    · rw [if_neg h, C_1, one_mul]
  refine ⟨x, y, hxy, hxyo, fun X hX hXs => ?_⟩
  obtain ⟨v, g, w, hv, hg, hw, hwG, hwe⟩ := hmain X hX (fun i hi j hj => by
    rw [hXs i hi j hj]
    have := hsum 0 0 (nth x i) (nth y j)
    simp only [Function.iterate_zero, id] at this
    rw [this, Finset.sum_eq_single i, Finset.sum_eq_single j, hxj i hi, hyj j hj,
      card_eval_self hn0 hi, card_eval_self hn1 hj, mul_one, mul_one]
    · intro q _ hq
      rw [hyj j hj, card_eval_ne hq hj, mul_zero]
    · intro h; exact absurd (mem_range.mpr hj) h
    · intro p _ hp
      refine Finset.sum_eq_zero (fun q _ => ?_)
      rw [hxj i hi, card_eval_ne hp hi, mul_zero, zero_mul]
    · intro h; exact absurd (mem_range.mpr hi) h)
  refine ⟨v, g, w, hv, hg, hw, hwG, fun p hp q hq => ?_⟩
  have hxp : nth x p ∈ Set.Icc (-1 : ℝ) 1 := by rw [hxj p hp]; exact chebPoint_mem _ _
  have hyq : nth y q ∈ Set.Icc (-1 : ℝ) 1 := by rw [hyj q hq]; exact chebPoint_mem _ _
  rw [hwe p hp q hq, hsum, ← mul_sub, abs_mul]
  refine mul_le_mul_of_nonneg_left ?_ (abs_nonneg _)
  -- the interpolant as a series
  have h1 : HasSum (fun R : ℕ × ℕ => a R
        * (derivative^[d0] (Chebyshev.T ℝ (chebAlias n0 R.1 : ℕ))).eval (nth x p)
        * (derivative^[d1] (Chebyshev.T ℝ (chebAlias n1 R.2 : ℕ))).eval (nth y q))
      (∑ i ∈ range n0, ∑ j ∈ range n1, F i j * (derivative^[d0] (card n0 i)).eval (nth x p)
        * (derivative^[d1] (card n1 j)).eval (nth y q)) := by
    have := hasSum_sum (s := range n0) (fun i _ => hasSum_sum (s := range n1) (fun j _ =>
      ((hf _ (chebPoint_mem n0 i) _ (chebPoint_mem n1 j)).mul_right
        ((derivative^[d0] (card n0 i)).eval (nth x p))).mul_right
        ((derivative^[d1] (card n1 j)).eval (nth y q))))
    convert! this using 1
    funext R
    rw [← card_T_deriv hn0, ← card_T_deriv hn1, mul_assoc, Finset.sum_mul_sum, Finset.mul_sum]
    refine Finset.sum_congr rfl (fun i _ => ?_)
    rw [Finset.mul_sum]
    exact Finset.sum_congr rfl (fun j _ => by ring)
  have hle : ∀ (c u t : ℝ) (i j i' j' : ℕ), i' ≤ i → j' ≤ j → |u| ≤ (i' : ℝ) ^ (2 * d0) →
      |t| ≤ (j' : ℝ) ^ (2 * d1) → |c * u * t| ≤ |c| * (i : ℝ) ^ (2 * d0) * (j : ℝ) ^ (2 * d1) := by
    intro c u t i j i' j' hi hj hu ht
    have hi' : (i' : ℝ) ^ (2 * d0) ≤ (i : ℝ) ^ (2 * d0) :=
      pow_le_pow_left₀ (Nat.cast_nonneg _) (by exact_mod_cast hi) _
    have hj' : (j' : ℝ) ^ (2 * d1) ≤ (j : ℝ) ^ (2 * d1) :=
      pow_le_pow_left₀ (Nat.cast_nonneg _) (by exact_mod_cast hj) _
    rw [abs_mul, abs_mul]
    have := hu.trans hi'
    have := ht.trans hj'
    gcongr
  refine abs_sub_le_tail {R : ℕ × ℕ | ¬(R.1 < n0 ∧ R.2 < n1)} h1 (mixed_cheb hs hf hxp hyq)
    (fun R hR => ?_) (fun R => ?_) (fun R => ?_) (summable_weight hs le_rfl le_rfl)
  · obtain ⟨hr0, hr1⟩ := not_not.mp hR
    rw [chebAlias_of_lt hn0 hr0, chebAlias_of_lt hn1 hr1]
  · exact hle _ _ _ _ _ _ _ (chebAlias_le R.1) (chebAlias_le R.2)
      (abs_iterate_derivative_T_le _ _ (abs_le.mpr hxp)) (abs_iterate_derivative_T_le _ _ (abs_le.mpr hyq))
  · exact hle _ _ _ _ _ _ _ le_rfl le_rfl
      (abs_iterate_derivative_T_le _ _ (abs_le.mpr hxp)) (abs_iterate_derivative_T_le _ _ (abs_le.mpr hyq))

/-- Powers times a geometric series. -/
theorem geo_summable (d : ℕ) : Summable (fun k : ℕ => ((k : ℝ) + 1) ^ d * (1 / 2 : ℝ) ^ k) := by
  have h := (summable_nat_add_iff 1).mpr (summable_pow_mul_geometric_of_norm_lt_one (R := ℝ) d
    (r := 1 / 2) (by rw [Real.norm_eq_abs, abs_of_nonneg] <;> norm_num))
  refine (h.mul_left 2).congr (fun k => ?_)
  push_cast
  rw [pow_succ]
  ring

/-- The rational function `g(x) g(y)`, `g(x) = (1 - x/2) / (5/4 - x)`, meets the hypotheses for all orders
(with `n0, n1 ≥ 3` and the Chebyshev base on both axes); no coefficient vanishes. -/
example (d0 d1 : ℕ) : ∃ a : ℕ × ℕ → ℝ, (∀ P, a P ≠ 0) ∧
    Summable (fun P : ℕ × ℕ => |a P| * ((P.1 : ℝ) + 1) ^ (2 * d0) * ((P.2 : ℝ) + 1) ^ (2 * d1)) ∧
    ∀ x ∈ Set.Icc (-1 : ℝ) 1, ∀ y ∈ Set.Icc (-1 : ℝ) 1, HasSum (fun P : ℕ × ℕ =>
      a P * (Chebyshev.T ℝ P.1).eval x * (Chebyshev.T ℝ P.2).eval y)
      ((1 - x / 2) / (5 / 4 - x) * ((1 - y / 2) / (5 / 4 - y))) := by
  refine ⟨fun P => (1 / 2) ^ P.1 * (1 / 2) ^ P.2, fun P => by positivity, ?_, fun x hx y hy => ?_⟩
  · have h := (geo_summable (2 * d0)).mul_of_nonneg (geo_summable (2 * d1)) (fun _ => by positivity)
      (fun _ => by positivity)
    refine h.congr (fun P => ?_)
    rw [abs_of_nonneg (show (0 : ℝ) ≤ (1 / 2) ^ P.1 * (1 / 2) ^ P.2 by positivity)]
    ring
  · have hn : ∀ z ∈ Set.Icc (-1 : ℝ) 1, Summable (fun k : ℕ => ‖(1 / 2 : ℝ) ^ k * (Chebyshev.T ℝ k).eval z‖) :=
      fun z hz => Summable.of_nonneg_of_le (fun _ => norm_nonneg _) (fun k => by
        rw [norm_mul, Real.norm_eq_abs, Real.norm_eq_abs, abs_of_nonneg (by positivity)]
        exact mul_le_of_le_one_right (by positivity)
          (Chebyshev.abs_eval_T_real_le_one _ (abs_le.mpr hz))) (summable_geometric_two)
    have h := (cheb_generating x hx).mul (cheb_generating y hy)
      (summable_mul_of_summable_norm (hn x hx) (hn y hy))
    convert! h using 1
    funext P
    ring

/-- C88 for BaseR2c×BaseR2r (the space of the documentation and of the Navier-Stokes examples): let
`f(x,y) = ∑ (A(J,K) cos(J x) + B(J,K) sin(J x)) T_K(y)` with
`∑ (|A(J,K)| + |B(J,K)|) (J+1)^d0 (K+1)^(2 d1) < ∞`.  Sample `f` on the grid; `forward`, `gradient` with
orders `d0, d1` and optional scales, and `backward` of the space with the Chebyshev base return
`∂ₓ^d0 ∂ᵧ^d1 f` on the grid, divided by the scales, up to twice the tail of
`∑ (|A(J,K)| + |B(J,K)|) J^d0 K^(2 d1)` over the pairs that are not resolved, `2 J ≥ n0` or `K ≥ n1`.
The second base is `chebyshev`, or `cheb_dirichlet` for functions that vanish at `y = ±1`. -/
theorem C88_space2_r2c_r2r (n0 : ℕ) (bx : Base ℝ ℂ ℂ) (hbx : IsR2c n0 bx) (k1 : Option CKind) (n1 : ℕ)
    (b1 o1 : BaseR2r)
    (hb1 : newR2r k1 n1 = ok b1) (hs1 : RunsSolve k1 n1) (hg1 : RunsGrad k1 n1)
    (ho1 : chebyshev n1 = ok o1) (d0 d1 : ℕ) (A B : ℕ × ℕ → ℝ)
    (hs : Summable (fun P : ℕ × ℕ => (|A P| + |B P|) * ((P.1 : ℝ) + 1) ^ d0 * ((P.2 : ℝ) + 1) ^ (2 * d1)))
    (f : ℝ → ℝ → ℝ) (hf : ∀ x, ∀ y ∈ Set.Icc (-1 : ℝ) 1, HasSum (fun P : ℕ × ℕ =>
      (A P * Real.cos (P.1 * x) + B P * Real.sin (P.1 * x)) * (Chebyshev.T ℝ P.2).eval y) (f x y))
    (hk1 : k1 = none ∨ k1 = some .dirichlet ∧ ∀ x, f x (-1) = 0 ∧ f x 1 = 0)
    (scale : Option (ℝ × ℝ)) (hsc : scale ≠ none → d0 < 2 ^ 31 ∧ d1 < 2 ^ 31)
    (hne : scale2 d0 d1 scale ≠ 0) :
    let sp : Space2 ℝ ℝ ℂ ℂ := ⟨bx, b1.toBase ℂ⟩
    let so : Space2 ℝ ℝ ℂ ℂ := ⟨bx, o1.toBase ℂ⟩
    ∃ x y, sp.coords = ok [x, y] ∧ so.coords = ok [x, y] ∧ ∀ X : Arr ℝ, Good X [n0, n1] →
      (∀ p < n0, ∀ q < n1, at_ X [p, q] = f (nth x p) (nth y q)) →
      ∃ v g w, sp.forward X = ok v ∧ sp.gradient v d0 d1 scale = ok g ∧ so.backward g = ok w ∧
        Good w [n0, n1] ∧ ∀ p < n0, ∀ q < n1,
          |at_ w [p, q] - (scale2 d0 d1 scale)⁻¹ * iteratedDeriv d0
            (fun x => iteratedDerivWithin d1 (f x) (Set.Icc (-1) 1) (nth y q)) (nth x p)|
          ≤ |(scale2 d0 d1 scale)⁻¹| * (2 * ∑' P : {P : ℕ × ℕ // ¬(2 * P.1 < n0 ∧ P.2 < n1)},
              (|A P| + |B P|) * (P.1.1 : ℝ) ^ d0 * (P.1.2 : ℝ) ^ (2 * d1)) := by
  classical
  intro sp so
  have hm : RunsMul k1 := by
    rcases hk1 with rfl | ⟨rfl, -⟩
    · trivial
    · exact Or.inl rfl
  have hn0 : 1 ≤ n0 := hbx.1
  obtain ⟨y', hy', hn1, hyj⟩ := coords_point (T := ℂ) ho1
  obtain ⟨x', hx', hxj⟩ : ∃ x, bx.coords = ok x ∧ ∀ j < n0, nth x j = 2 * Real.pi * j / n0 := by
    obtain ⟨hn, b0, hb, rfl⟩ := hbx
    obtain rfl := r2c_inv hb
    obtain ⟨x, h1, -, h2⟩ := C23_r2c_coords n0 hn ⟨n0, n0 / 2 + 1⟩ rfl
    exact ⟨x, h1, h2⟩
  have habs : ∀ P, |(|A P| + |B P|)| = |A P| + |B P| := fun P => abs_of_nonneg (by positivity)
  have hs' : Summable (fun P : ℕ × ℕ => |(|A P| + |B P|)| * ((P.1 : ℝ) + 1) ^ d0
      * ((P.2 : ℝ) + 1) ^ (2 * d1)) := by simpa only [habs] using hs
  have hW := fun {e0 e1 : ℕ} (h0 : e0 ≤ d0) (h1 : e1 ≤ 2 * d1) =>
    summable_weight (a := fun P => |A P| + |B P|) hs' h0 h1
  simp only [habs] at hW
  have hS0 : Summable (fun P : ℕ × ℕ => |A P| + |B P|) := by
    simpa using hW (Nat.zero_le _) (Nat.zero_le _)
  -- coefficients on the lines of the grid
  have hTb : ∀ (Z : ℕ × ℕ → ℝ) (y : ℝ), y ∈ Set.Icc (-1 : ℝ) 1 → ∀ P : ℕ × ℕ,
      |Z P * (Chebyshev.T ℝ P.2).eval y| ≤ |Z P| := fun Z y hy P => by
    rw [abs_mul]
    exact mul_le_of_le_one_right (abs_nonneg _) (Chebyshev.abs_eval_T_real_le_one _ (abs_le.mpr hy))
  have hSA : Summable (fun P => |A P|) := Summable.of_nonneg_of_le (fun _ => abs_nonneg _)
    (fun P => le_add_of_nonneg_right (abs_nonneg _)) hS0
  have hSB : Summable (fun P => |B P|) := Summable.of_nonneg_of_le (fun _ => abs_nonneg _)
    (fun P => le_add_of_nonneg_left (abs_nonneg _)) hS0
  set AJ : ℕ → ℕ → ℝ := fun q J => ∑' K, A (J, K) * (Chebyshev.T ℝ K).eval (chebPoint n1 q) with hAJ
  set BJ : ℕ → ℕ → ℝ := fun q J => ∑' K, B (J, K) * (Chebyshev.T ℝ K).eval (chebPoint n1 q) with hBJ
  have hrA : ∀ q J, HasSum (fun K => A (J, K) * (Chebyshev.T ℝ K).eval (chebPoint n1 q)) (AJ q J) := fun q J =>
    (summable_row (Summable.of_norm_bounded hSA (hTb A _ (chebPoint_mem n1 q))) J).hasSum
  have hrB : ∀ q J, HasSum (fun K => B (J, K) * (Chebyshev.T ℝ K).eval (chebPoint n1 q)) (BJ q J) := fun q J =>
    (summable_row (Summable.of_norm_bounded hSB (hTb B _ (chebPoint_mem n1 q))) J).hasSum
  choose A' B' hB' hD hZ using fun q => four_interp n0 hn0 (AJ q) (BJ q)
    ((summable_abs_rows hSA (hTb A _ (chebPoint_mem n1 q))).1.add
      (summable_abs_rows hSB (hTb B _ (chebPoint_mem n1 q))).1)
  -- the interpolants have the values of `f`
  have hgrid : ∀ q, ∀ j < n0, trigPoly (n0 / 2) (A' q) (B' q) (2 * Real.pi * j / n0)
      = f (2 * Real.pi * j / n0) (chebPoint n1 q) := by
    intro q j hj
    have h1 := hD q 0 (2 * Real.pi * j / n0)
    rw [iteratedDeriv_zero] at h1
    simp only [tterm_grid hn0] at h1
    have h2 := hasSum_rows (hf (2 * Real.pi * j / n0) _ (chebPoint_mem n1 q))
    refine h1.unique ?_
    convert! h2 using 1
    funext J
    have h3 := ((hrA q J).mul_left (Real.cos (J * (2 * Real.pi * j / n0)))).add
      ((hrB q J).mul_left (Real.sin (J * (2 * Real.pi * j / n0))))
    rw [mul_comm (AJ q J), mul_comm (BJ q J), ← h3.tsum_eq]
    exact tsum_congr (fun K => by ring)
  have hin : ∀ q < n1, (k1 = none ∨ k1 = some .dirichlet ∧ q ≠ 0 ∧ q ≠ n1 - 1)
      ∨ trigPoly (n0 / 2) (A' q) (B' q) = fun _ => 0 := by
    intro q hq
    rcases hk1 with h | ⟨h, hb⟩
    · exact Or.inl (Or.inl h)
    · by_cases hqb : q = 0 ∨ q = n1 - 1
      · right
        refine hZ q (fun j hj => ?_)
        rw [hgrid q j hj]
        rcases hqb with rfl | rfl
        · rw [chebPoint_zero]; exact (hb _).1
        · rw [chebPoint_last hn1]; exact (hb _).2
      · exact Or.inl (Or.inr ⟨h, not_or.mp hqb⟩)
  set Q : ℕ → ℝ[X] := fun q => if k1 = none ∨ k1 = some .dirichlet ∧ q ≠ 0 ∧ q ≠ n1 - 1 then
    C 1 * card n1 q else 0 with hQ
  obtain ⟨x, y, hxy, hxyo, hmain⟩ := C59_space2_r2c_r2r n0 (n0 / 2) (by omega) bx hbx k1 n1 b1 o1 hb1 hm hs1
    hg1 ho1 n1 A' B' (fun h q _ => hB' q h) Q
    (fun q hq => by
      rw [hQ]; dsimp only
      split
      · next h => exact card_bc hn1 hq h 1
      · refine ⟨by simpa using WithBot.bot_lt_coe n1, ?_⟩
        rcases hk1 with rfl | ⟨rfl, -⟩
        · trivial
        · simp [PolyBC])
    d0 d1 scale hsc hne
  have hco : so.coords = ok [x', y'] := by
    show (do let c0 ← bx.coords
             let c1 ← (o1.toBase ℂ).coords
             pure [c0, c1]) = _
    rw [hx', hy']; rfl
  obtain ⟨rfl, h⟩ := List.cons.inj (Res.ok.inj (hxyo.symm.trans hco))
  obtain ⟨rfl, -⟩ := List.cons.inj h
  have hsum : ∀ (e0 e1 : ℕ) (u t : ℝ), ∑ q ∈ range n1, iteratedDeriv e0 (trigPoly (n0 / 2) (A' q) (B' q)) u
      * (derivative^[e1] (Q q)).eval t = ∑ q ∈ range n1,
        iteratedDeriv e0 (trigPoly (n0 / 2) (A' q) (B' q)) u * (derivative^[e1] (card n1 q)).eval t := by
    intro e0 e1 u t
    refine Finset.sum_congr rfl (fun q hq => ?_)
    rcases hin q (mem_range.mp hq) with h | h
    · rw [hQ]; dsimp only
      rw [if_pos h, C_1, one_mul]
    · have : iteratedDeriv e0 (trigPoly (n0 / 2) (A' q) (B' q)) u = 0 := by
        rw [h]; simp
      rw [this, zero_mul, zero_mul]
  refine ⟨x, y, hxy, hxyo, fun X hX hXs => ?_⟩
  obtain ⟨v, g, w, hv, hg, hw, hwG, hwe⟩ := hmain X hX (fun i hi j hj => by
    rw [hXs i hi j hj]
    have := hsum 0 0 (nth x i) (nth y j)
    simp only [Function.iterate_zero, id, iteratedDeriv_zero] at this
    rw [this, Finset.sum_eq_single j, hyj j hj, card_eval_self hn1 hj, mul_one, hxj i hi, hgrid j i hi]
    · intro q _ hq
      rw [hyj j hj, card_eval_ne hq hj, mul_zero]
    · intro h; exact absurd (mem_range.mpr hj) h)
  refine ⟨v, g, w, hv, hg, hw, hwG, fun p hp q hq => ?_⟩
  have hyq : nth y q ∈ Set.Icc (-1 : ℝ) 1 := by rw [hyj q hq]; exact chebPoint_mem _ _
  rw [hwe p hp q hq, hsum, ← mul_sub, abs_mul]
  refine mul_le_mul_of_nonneg_left ?_ (abs_nonneg _)
  -- the interpolant as a series
  have hT := fun k => abs_iterate_derivative_T_le k d1 (abs_le.mpr hyq)
  have hga : ∀ P : ℕ × ℕ, |tterm (A P) (sinSign n0 P.1 * B P) (cosAlias n0 P.1) d0 (nth x p)
      * (derivative^[d1] (Chebyshev.T ℝ (chebAlias n1 P.2 : ℕ))).eval (nth y q)|
      ≤ (|A P| + |B P|) * (P.1 : ℝ) ^ d0 * (P.2 : ℝ) ^ (2 * d1) := by
    intro P
    have h1 : |(sinSign n0 P.1 : ℝ) * B P| ≤ |B P| := by
      rw [abs_mul]; exact mul_le_of_le_one_left (abs_nonneg _) (sinSign_abs n0 P.1)
    have h2 : ((cosAlias n0 P.1 : ℕ) : ℝ) ^ d0 ≤ (P.1 : ℝ) ^ d0 :=
      pow_le_pow_left₀ (Nat.cast_nonneg _) (by exact_mod_cast cosAlias_le_self P.1) _
    have h3 : ((chebAlias n1 P.2 : ℕ) : ℝ) ^ (2 * d1) ≤ (P.2 : ℝ) ^ (2 * d1) :=
      pow_le_pow_left₀ (Nat.cast_nonneg _) (by exact_mod_cast chebAlias_le P.2) _
    rw [abs_mul]
    refine mul_le_mul ((tterm_abs _ _ _ _ _).trans ?_) ((hT _).trans h3) (abs_nonneg _) (by positivity)
    rw [mul_comm]
    exact mul_le_mul (by linarith) h2 (by positivity) (by positivity)
  have hge : ∀ P : ℕ × ℕ, |tterm (A P) (B P) P.1 d0 (nth x p)
      * (derivative^[d1] (Chebyshev.T ℝ P.2)).eval (nth y q)|
      ≤ (|A P| + |B P|) * (P.1 : ℝ) ^ d0 * (P.2 : ℝ) ^ (2 * d1) := by
    intro P
    rw [abs_mul]
    refine mul_le_mul ((tterm_abs _ _ _ _ _).trans (le_of_eq (mul_comm _ _))) (hT _) (abs_nonneg _)
      (by positivity)
  have hsg : Summable (fun P : ℕ × ℕ => tterm (A P) (sinSign n0 P.1 * B P) (cosAlias n0 P.1) d0 (nth x p)
      * (derivative^[d1] (Chebyshev.T ℝ (chebAlias n1 P.2 : ℕ))).eval (nth y q)) :=
    Summable.of_norm_bounded (hW le_rfl le_rfl) hga
  have h1 : HasSum (fun P : ℕ × ℕ => tterm (A P) (sinSign n0 P.1 * B P) (cosAlias n0 P.1) d0 (nth x p)
      * (derivative^[d1] (Chebyshev.T ℝ (chebAlias n1 P.2 : ℕ))).eval (nth y q))
      (∑ j ∈ range n1, iteratedDeriv d0 (trigPoly (n0 / 2) (A' j) (B' j)) (nth x p)
        * (derivative^[d1] (card n1 j)).eval (nth y q)) := by
    have h2 := hasSum_sum (s := range n1) (fun j _ => (hD j d0 (nth x p)).mul_right
      ((derivative^[d1] (card n1 j)).eval (nth y q)))
    have h3 := hasSum_rows hsg.hasSum
    have h4 : (fun J => ∑' K, tterm (A (J, K)) (sinSign n0 J * B (J, K)) (cosAlias n0 J) d0 (nth x p)
          * (derivative^[d1] (Chebyshev.T ℝ (chebAlias n1 K : ℕ))).eval (nth y q))
        = fun J => ∑ j ∈ range n1, tterm (AJ j J) (sinSign n0 J * BJ j J) (cosAlias n0 J) d0 (nth x p)
          * (derivative^[d1] (card n1 j)).eval (nth y q) := by
      funext J
      have h5 := hasSum_sum (s := range n1) (fun j _ =>
        (((hrA j J).mul_left (tterm 1 0 (cosAlias n0 J) d0 (nth x p))).add
          (((hrB j J).mul_left (sinSign n0 J : ℝ)).mul_left (tterm 0 1 (cosAlias n0 J) d0 (nth x p)))).mul_right
          ((derivative^[d1] (card n1 j)).eval (nth y q)))
      rw [Finset.sum_congr rfl (fun j _ => by rw [tterm_lin]), ← h5.tsum_eq]
      refine tsum_congr (fun K => ?_)
      rw [← card_T_deriv hn1, Finset.mul_sum, tterm_lin]
      exact Finset.sum_congr rfl (fun j _ => by ring)
    have h6 := h3
    change HasSum (fun J => ∑' K, tterm (A (J, K)) (sinSign n0 J * B (J, K)) (cosAlias n0 J) d0 (nth x p)
          * (derivative^[d1] (Chebyshev.T ℝ (chebAlias n1 K : ℕ))).eval (nth y q)) _ at h6
    rw [h4] at h6
    rw [h2.unique h6]
    exact hsg.hasSum
  refine abs_sub_le_tail {P : ℕ × ℕ | ¬(2 * P.1 < n0 ∧ P.2 < n1)} h1 (mixed_four hs' hf hyq)
    (fun P hP => ?_) hga hge (hW le_rfl le_rfl)
  obtain ⟨hr0, hr1⟩ := not_not.mp hP
  rw [chebAlias_of_lt hn1 hr1, cosAlias_of_lt hr0]
  congr 1
  by_cases hk0 : P.1 = 0
  · unfold tterm
    rw [hk0]
    rcases Nat.eq_zero_or_pos d0 with h | h
    · subst h; simp
    · simp [zero_pow (show d0 ≠ 0 by omega)]
  · rw [sinSign_of_lt hr0 hk0, Int.cast_one, one_mul]

/-- The function `h(x) g(y)`, `h(x) = (1 - cos x / 2) / (5/4 - cos x)`, meets the hypotheses for all orders. -/
example (d0 d1 : ℕ) : ∃ A B : ℕ × ℕ → ℝ, (∀ P, A P ≠ 0) ∧
    Summable (fun P : ℕ × ℕ => (|A P| + |B P|) * ((P.1 : ℝ) + 1) ^ d0 * ((P.2 : ℝ) + 1) ^ (2 * d1)) ∧
    ∀ x, ∀ y ∈ Set.Icc (-1 : ℝ) 1, HasSum (fun P : ℕ × ℕ =>
      (A P * Real.cos (P.1 * x) + B P * Real.sin (P.1 * x)) * (Chebyshev.T ℝ P.2).eval y)
      ((1 - Real.cos x / 2) / (5 / 4 - Real.cos x) * ((1 - y / 2) / (5 / 4 - y))) := by
  refine ⟨fun P => (1 / 2) ^ P.1 * (1 / 2) ^ P.2, fun _ => 0, fun P => by positivity, ?_, fun x y hy => ?_⟩
  · have h := (geo_summable d0).mul_of_nonneg (geo_summable (2 * d1)) (fun _ => by positivity)
      (fun _ => by positivity)
    refine h.congr (fun P => ?_)
    rw [abs_of_nonneg (show (0 : ℝ) ≤ (1 / 2) ^ P.1 * (1 / 2) ^ P.2 by positivity), abs_zero]
    ring
  · have hn : ∀ z ∈ Set.Icc (-1 : ℝ) 1, Summable (fun k : ℕ => ‖(1 / 2 : ℝ) ^ k * (Chebyshev.T ℝ k).eval z‖) :=
      fun z hz => Summable.of_nonneg_of_le (fun _ => norm_nonneg _) (fun k => by
        rw [norm_mul, Real.norm_eq_abs, Real.norm_eq_abs, abs_of_nonneg (by positivity)]
        exact mul_le_of_le_one_right (by positivity)
          (Chebyshev.abs_eval_T_real_le_one _ (abs_le.mpr hz))) (summable_geometric_two)
    have hx : Real.cos x ∈ Set.Icc (-1 : ℝ) 1 := ⟨Real.neg_one_le_cos x, Real.cos_le_one x⟩
    have h := (cheb_generating _ hx).mul (cheb_generating y hy)
      (summable_mul_of_summable_norm (hn _ hx) (hn y hy))
    convert! h using 1
    funext P
    have := Chebyshev.T_real_cos x (P.1 : ℤ)
    rw [this]
    simp only [Int.cast_natCast]
    ring

end Verif.Props
