/-
Property C116: convergence for all smooth functions, with rates.
-/
import Verif.Proof.Decay
import Verif.Props.Accuracy
import Verif.Props.Boundary

namespace Verif.Props
open Res Spec Finset Complex Polynomial

/-- C116, `fourier_r2c`: for every periodic function `f` with `p ≥ d + 2` continuous derivatives there is a constant `C` such that on
every grid `forward`, `gradient` of order `d` and `backward` compute the `d`-th derivative of `f` with an error of at most
`C / n^(p - d - 1)`, at the grid points and (the trigonometric polynomial with the computed coefficients) everywhere. -/
theorem C116_fourier_r2c (d p : ℕ) (hdp : d + 2 ≤ p) (hd : d < 2 ^ 31) (f : ℝ → ℝ) (hf : ContDiff ℝ p f)
    (hper : Function.Periodic f (2 * Real.pi)) :
    ∃ C : ℝ, ∀ (n : ℕ) (_ : 1 ≤ n) (b : R2c) (_ : R2c.new n = ok b) (out out' : List ℂ) (out'' : List ℝ),
      out.length = b.lenSpec → out'.length = b.lenOrth → out''.length = b.lenPhys →
      ∃ x c g v, b.coords = ok x ∧ b.forwardSlice (x.map f) out = ok c ∧ b.gradientSlice c out' d = ok g ∧
        b.backwardSlice g out'' = ok v ∧ v.length = n ∧
        (∀ y, |trigR n g y - iteratedDeriv d f y| ≤ C / (n : ℝ) ^ (p - d - 1)) ∧
        ∀ j < n, |nth v j - iteratedDeriv d f (nth x j)| ≤ C / (n : ℝ) ^ (p - d - 1) := by
  obtain ⟨A, B, M, h0, hM, hsum⟩ := trig_series p (by omega) f hf hper
  refine ⟨4 * M * 2 ^ (p - d - 1), fun n hn b hb out out' out'' ho ho' ho'' => ?_⟩
  obtain ⟨q, rfl⟩ := Nat.exists_eq_add_of_le hdp
  rw [show d + 2 + q - d - 1 = q + 1 by omega]
  have ht : ∀ k : ℕ, 1 ≤ k → (k : ℝ) ^ d * (|A k| + |B k|) ≤ M * (k : ℝ) ^ d / (k : ℝ) ^ (d + 2 + q) := fun k hk => by
    rw [mul_comm M, mul_div_assoc]
    exact mul_le_mul_of_nonneg_left (hM k hk) (by positivity)
  have hm : 1 ≤ (n + 1) / 2 := by omega
  obtain ⟨hs, htail⟩ := tail_le (p := d + 2 + q) (by omega) h0
    (fun k => by positivity : ∀ k : ℕ, 0 ≤ (k : ℝ) ^ d * (|A k| + |B k|)) ht hm
  obtain ⟨x, c, g, v, e1, e2, e3, e4, e5, e6, e7⟩ := C80_fourier_r2c n hn b hb A B d hd hs f hsum out out' out'' ho ho' ho''
  let E : ℕ ≃ {k : ℕ // n ≤ 2 * k} := ⟨fun k => ⟨k + (n + 1) / 2, by omega⟩, fun k => k.1 - (n + 1) / 2, fun k => by simp,
    fun k => by have := k.2; ext; dsimp only; omega⟩
  have htail' : 2 * ∑' k : {k : ℕ // n ≤ 2 * k}, (k : ℝ) ^ d * (|A k| + |B k|) ≤ 4 * M * 2 ^ (q + 1) / (n : ℝ) ^ (q + 1) := by
    rw [← E.tsum_eq]
    have h1 : (n : ℝ) / 2 ≤ ((n + 1) / 2 : ℕ) := by
      rw [div_le_iff₀ (by norm_num)]
      exact_mod_cast (by omega : n ≤ (n + 1) / 2 * 2)
    have hn' : (0 : ℝ) < n := by exact_mod_cast hn
    set m := (n + 1) / 2
    have hm' : (0 : ℝ) < m := by exact_mod_cast hm
    have h2 : 2 * M * (m : ℝ) ^ (d + 1) / (m : ℝ) ^ (d + 2 + q) = 2 * M / (m : ℝ) ^ (q + 1) := by
      rw [show d + 2 + q = d + 1 + (q + 1) by omega, pow_add (m : ℝ) (d + 1)]
      field_simp
    rw [h2] at htail
    have h3 : 2 * M / (m : ℝ) ^ (q + 1) ≤ 2 * M / ((n : ℝ) / 2) ^ (q + 1) :=
      div_le_div_of_nonneg_left (by positivity) (by positivity) (pow_le_pow_left₀ (by positivity) h1 _)
    have h4 : 2 * (2 * M / ((n : ℝ) / 2) ^ (q + 1)) = 4 * M * 2 ^ (q + 1) / (n : ℝ) ^ (q + 1) := by
      rw [div_pow]; field_simp; ring
    rw [← h4]
    exact mul_le_mul_of_nonneg_left (htail.trans h3) (by norm_num)
  exact ⟨x, c, g, v, e1, e2, e3, e4, e5, fun y => (e6 y).trans htail', fun j hj => (e7 j hj).trans htail'⟩

private theorem cheb_tail {a : ℕ → ℝ} {M : ℝ} {p : ℕ} (h0 : 0 ≤ M) (hM : ∀ k : ℕ, 1 ≤ k → |a k| ≤ M / (k : ℝ) ^ p) (d q : ℕ)
    (hp : p = 2 * d + 2 + q) :
    Summable (fun k : ℕ => |a k| * (k : ℝ) ^ (2 * d)) ∧ ∀ n : ℕ, 1 ≤ n →
      ∑' k : ℕ, |a (k + n)| * ((k + n : ℕ) : ℝ) ^ (2 * d) ≤ 2 * M / (n : ℝ) ^ (q + 1) := by
  subst hp
  have ht : ∀ k : ℕ, 1 ≤ k → |a k| * (k : ℝ) ^ (2 * d) ≤ M * (k : ℝ) ^ (2 * d) / (k : ℝ) ^ (2 * d + 2 + q) := fun k hk => by
    rw [mul_div_right_comm]
    exact mul_le_mul_of_nonneg_right (hM k hk) (by positivity)
  have key := fun {m : ℕ} (hm : 1 ≤ m) => tail_le (p := 2 * d + 2 + q) (by omega) h0
    (fun k => by positivity : ∀ k : ℕ, 0 ≤ |a k| * (k : ℝ) ^ (2 * d)) ht hm
  refine ⟨(key le_rfl).1, fun n hn => (key hn).2.trans (le_of_eq ?_)⟩
  have hn' : (n : ℝ) ≠ 0 := by exact_mod_cast (by omega : n ≠ 0)
  rw [show 2 * d + 2 + q = 2 * d + 1 + (q + 1) by omega, pow_add (n : ℝ) (2 * d + 1)]
  field_simp

/-- the error of the numerical derivative of a function whose Chebyshev coefficients decay -/
theorem cheb_rate {a : ℕ → ℝ} {M : ℝ} {p : ℕ} (h0 : 0 ≤ M) (hM : ∀ k : ℕ, 1 ≤ k → |a k| ≤ M / (k : ℝ) ^ p) (d : ℕ) (hdp : 2 * d + 2 ≤ p)
    (f : ℝ → ℝ) (hsum : ∀ x ∈ Set.Icc (-1 : ℝ) 1, HasSum (fun k : ℕ => a k * (Chebyshev.T ℝ k).eval x) (f x))
    (n : ℕ) (hn : 3 ≤ n) (b : Cheb) (hb : Cheb.new n = ok b) (out out' out'' : List ℝ)
    (ho : out.length = b.lenSpec) (ho' : out'.length = b.lenOrth) (ho'' : out''.length = b.lenPhys) :
      ∃ x c g v, b.coords = ok x ∧ b.forwardSlice (x.map f) out = ok c ∧ b.gradientSlice ℝ c out' d = ok g ∧
        b.backwardSlice g out'' = ok v ∧ v.length = n ∧
        (∀ y ∈ Set.Icc (-1 : ℝ) 1, |(chebPoly ℝ g).eval y - iteratedDerivWithin d f (Set.Icc (-1) 1) y|
          ≤ 4 * M / (n : ℝ) ^ (p - 2 * d - 1)) ∧
        ∀ j < n, |nth v j - iteratedDerivWithin d f (Set.Icc (-1) 1) (nth x j)| ≤ 4 * M / (n : ℝ) ^ (p - 2 * d - 1) := by
  obtain ⟨q, hq⟩ := Nat.exists_eq_add_of_le hdp
  obtain ⟨hs, ht⟩ := cheb_tail h0 hM d q hq
  obtain ⟨x, c, g, v, e1, e2, -, e3, e4, e5, -, e6, e7⟩ := C80_chebyshev n hn b hb a d hs f hsum out out' out'' ho ho' ho''
  have h1 : 2 * ∑' k : ℕ, |a (k + n)| * ((k + n : ℕ) : ℝ) ^ (2 * d) ≤ 4 * M / (n : ℝ) ^ (p - 2 * d - 1) := by
    rw [show p - 2 * d - 1 = q + 1 by omega]
    have := ht n (by omega)
    rw [show 4 * M / (n : ℝ) ^ (q + 1) = 2 * (2 * M / (n : ℝ) ^ (q + 1)) by ring]
    linarith
  exact ⟨x, c, g, v, e1, e2, e3, e4, e5, fun y hy => (e6 y hy).trans h1, fun j hj => (e7 j hj).trans h1⟩

/-- C116, `chebyshev`: the same for every function with `p ≥ 2 d + 2` continuous derivatives on `[-1, 1]`, with an error of at most
`C / n^(p - 2 d - 1)`. -/
theorem C116_chebyshev (d p : ℕ) (hdp : 2 * d + 2 ≤ p) (f : ℝ → ℝ) (hf : ContDiffOn ℝ p f (Set.Icc (-1) 1)) :
    ∃ C : ℝ, ∀ (n : ℕ) (_ : 3 ≤ n) (b : Cheb) (_ : Cheb.new n = ok b) (out out' out'' : List ℝ),
      out.length = b.lenSpec → out'.length = b.lenOrth → out''.length = b.lenPhys →
      ∃ x c g v, b.coords = ok x ∧ b.forwardSlice (x.map f) out = ok c ∧ b.gradientSlice ℝ c out' d = ok g ∧
        b.backwardSlice g out'' = ok v ∧ v.length = n ∧
        (∀ y ∈ Set.Icc (-1 : ℝ) 1, |(chebPoly ℝ g).eval y - iteratedDerivWithin d f (Set.Icc (-1) 1) y|
          ≤ C / (n : ℝ) ^ (p - 2 * d - 1)) ∧
        ∀ j < n, |nth v j - iteratedDerivWithin d f (Set.Icc (-1) 1) (nth x j)| ≤ C / (n : ℝ) ^ (p - 2 * d - 1) := by
  obtain ⟨a, M, h0, hM, hsum⟩ := cheb_series p (by omega) f hf
  exact ⟨4 * M, fun n hn b hb out out' out'' ho ho' ho'' => cheb_rate h0 hM d hdp f hsum n hn b hb out out' out'' ho ho' ho''⟩

/-- C116, the composite bases of second order: the same for every function that satisfies the boundary conditions of the base (`o = 0`
for Dirichlet, `1` for the others) and has `p ≥ 2 max(d, o) + 2` continuous derivatives, with an error of at most
`C √n n^(2 d + 2 o + 1) / n^p`. -/
theorem C116_composite (k : CKind) (hk : k = .dirichlet ∨ k = .neumann ∨ k = .dirichletNeumann) (d p : ℕ)
    (hdp : 2 * max d (conditionOrder k) + 2 ≤ p) (f : ℝ → ℝ) (hf : ContDiffOn ℝ p f (Set.Icc (-1) 1)) (hbc : FunctionBC k f) :
    ∃ C : ℝ, ∀ (n : ℕ) (_ : k.minSolve ≤ n) (b : Compo ℝ) (_ : Compo.new k n = ok b) (o : Cheb) (_ : Cheb.new n = ok o)
      (out out' out'' : List ℝ), out.length = b.lenSpec → out'.length = b.lenOrth → out''.length = o.lenPhys →
      ∃ x v g w, b.coords = ok x ∧ b.forwardSlice (x.map f) out = ok v ∧ b.gradientSlice v out' d = ok g ∧
        o.backwardSlice g out'' = ok w ∧ w.length = n ∧ x.length = n ∧
        ∀ j < n, |nth w j - iteratedDerivWithin d f (Set.Icc (-1) 1) (nth x j)|
          ≤ C * (√n * (n : ℝ) ^ (2 * d + 2 * conditionOrder k + 1)) / (n : ℝ) ^ p := by
  obtain ⟨a, M, h0, hM, hsum⟩ := cheb_series p (by omega) f hf
  set o' := conditionOrder k with ho'
  refine ⟨16 * M, fun n hn b hb o hO out out' out'' h h' h'' => ?_⟩
  have hn1 : 1 ≤ n := le_trans (by rcases hk with rfl | rfl | rfl <;> decide) hn
  obtain ⟨q, hq⟩ := Nat.exists_eq_add_of_le (show 2 * d + 2 ≤ p by omega)
  obtain ⟨r, hr⟩ := Nat.exists_eq_add_of_le (show 2 * o' + 2 ≤ p by omega)
  obtain ⟨s, hs⟩ := Nat.exists_eq_add_of_le hdp
  obtain ⟨-, ht1⟩ := cheb_tail h0 hM d q hq
  obtain ⟨-, ht2⟩ := cheb_tail h0 hM o' r hr
  obtain ⟨hs', -⟩ := cheb_tail h0 hM (max d o') s hs
  obtain ⟨x, v, g, w, e1, e2, e3, e4, e5, e6, e7⟩ := C98_derivative k hk n b o hb hn hO d a hs' f hsum hbc out out' out'' h h' h''
  refine ⟨x, v, g, w, e1, e2, e3, e4, e5, e6, fun j hj => (e7 j hj).trans ?_⟩
  have t1 : chebTail a n d ≤ 2 * M / (n : ℝ) ^ (q + 1) := ht1 n hn1
  have t2 : chebTail a n o' ≤ 2 * M / (n : ℝ) ^ (r + 1) := ht2 n hn1
  have hn' : (1 : ℝ) ≤ n := by exact_mod_cast hn1
  have hsq : 1 ≤ √(n : ℝ) := by rw [Real.one_le_sqrt]; exact hn'
  have u1 : 2 * M / (n : ℝ) ^ (q + 1) ≤ 2 * M * (√n * (n : ℝ) ^ (2 * d + 2 * o' + 1)) / (n : ℝ) ^ p := by
    rw [hq, show 2 * d + 2 + q = 2 * d + 1 + (q + 1) by omega, pow_add _ (2 * d + 1), ← div_div]
    refine div_le_div_of_nonneg_right ?_ (by positivity)
    rw [le_div_iff₀ (by positivity)]
    refine mul_le_mul_of_nonneg_left ?_ (by positivity)
    have : (n : ℝ) ^ (2 * d + 1) ≤ (n : ℝ) ^ (2 * d + 2 * o' + 1) := pow_le_pow_right₀ hn' (by omega)
    nlinarith [pow_pos (by linarith : (0 : ℝ) < n) (2 * d + 2 * o' + 1)]
  have u2 : √n * (n : ℝ) ^ (2 * d) * (2 * M / (n : ℝ) ^ (r + 1)) = 2 * M * (√n * (n : ℝ) ^ (2 * d + 2 * o' + 1)) / (n : ℝ) ^ p := by
    have : (n : ℝ) ≠ 0 := by linarith
    rw [hr, show 2 * o' + 2 + r = 2 * o' + 1 + (r + 1) by omega, pow_add _ (2 * o' + 1), show 2 * d + 2 * o' + 1 = 2 * d + (2 * o' + 1) by omega,
      pow_add _ (2 * d)]
    field_simp
  have u3 := mul_le_mul_of_nonneg_left t2 (by positivity : 0 ≤ √n * (n : ℝ) ^ (2 * d))
  rw [u2] at u3
  rw [← ho']
  have u0 : 0 ≤ chebTail a n d := tsum_nonneg fun k => by positivity
  have e : 16 * M * (√n * (n : ℝ) ^ (2 * d + 2 * o' + 1)) / (n : ℝ) ^ p
      = 8 * (2 * M * (√n * (n : ℝ) ^ (2 * d + 2 * o' + 1)) / (n : ℝ) ^ p) := by ring
  rw [e]
  have t3 := t1.trans u1
  generalize 2 * M * (√n * (n : ℝ) ^ (2 * d + 2 * o' + 1)) / (n : ℝ) ^ p = t at t3 u3 ⊢
  linarith

private theorem int_tail {a : ℤ → ℂ} {M : ℝ} {p : ℕ} (h0 : 0 ≤ M) (hp : 2 ≤ p) (hM : ∀ k : ℤ, k ≠ 0 → ‖a k‖ ≤ M / |(k : ℝ)| ^ p)
    (hs : Summable fun k => ‖a k‖) (n : ℕ) (hn : 1 ≤ n) :
    ∑' K : {K : ℤ // ¬(-n ≤ 2 * K ∧ 2 * K < n)}, ‖a K‖ ≤ 4 * M * 2 ^ (p - 1) / (n : ℝ) ^ (p - 1) := by
  classical
  obtain ⟨q, rfl⟩ := Nat.exists_eq_add_of_le hp
  set m := (n + 1) / 2 with hm
  have hm1 : 1 ≤ m := by omega
  set g : ℤ → ℝ := fun K => if (m : ℤ) ≤ |K| then ‖a K‖ else 0 with hg
  have hgs : Summable g := hs.of_nonneg_of_le (fun K => by simp only [hg]; split_ifs <;> simp)
    (fun K => by simp only [hg]; split_ifs <;> simp)
  have h1 : ∑' K : {K : ℤ // ¬(-n ≤ 2 * K ∧ 2 * K < n)}, ‖a K‖ ≤ ∑' K, g K := by
    have := tsum_subtype {K : ℤ | ¬(-n ≤ 2 * K ∧ 2 * K < n)} fun K => ‖a K‖
    refine (le_of_eq this).trans (Summable.tsum_le_tsum (fun K => ?_) (hs.indicator _) hgs)
    by_cases hK : ¬(-n ≤ 2 * K ∧ 2 * K < n)
    · rw [Set.indicator_of_mem (by exact hK)]
      have : (m : ℤ) ≤ |K| := by rw [le_abs]; omega
      simp only [hg, if_pos this, le_refl]
    · rw [Set.indicator_of_notMem (by exact fun h => hK h)]
      simp only [hg]; split_ifs <;> simp
  have h2 := hgs.hasSum.nat_add_neg
  have g0 : g 0 = 0 := by simp only [hg]; rw [if_neg (by rw [abs_zero]; omega)]
  rw [g0, add_zero] at h2
  set t : ℕ → ℝ := fun k => ‖a k‖ + ‖a (-k)‖ with ht
  have ht1 : ∀ k : ℕ, 1 ≤ k → t k ≤ 2 * M * (k : ℝ) ^ 0 / (k : ℝ) ^ (2 + q) := fun k hk => by
    have a1 := hM k (by exact_mod_cast (by omega : k ≠ 0))
    have a2 := hM (-k) (by simpa using (by omega : k ≠ 0))
    rw [Int.cast_neg, abs_neg] at a2
    rw [Int.cast_natCast, Nat.abs_cast] at a1 a2
    rw [pow_zero, mul_one, mul_div_assoc]
    simp only [ht]
    linarith
  obtain ⟨-, h3⟩ := tail_le (p := 2 + q) (by omega) (by positivity) (fun k => by positivity : ∀ k : ℕ, 0 ≤ t k) ht1 hm1
  have h4 : ∑' K, g K = ∑' k, t (k + m) := by
    rw [← h2.tsum_eq, ← h2.summable.sum_add_tsum_nat_add m]
    have z : ∑ k ∈ range m, (g k + g (-k)) = 0 := Finset.sum_eq_zero fun k hk => by
      have := Finset.mem_range.mp hk
      simp only [hg, abs_neg, Nat.abs_cast, Nat.cast_le]
      rw [if_neg (by omega), if_neg (by omega), add_zero]
    rw [z, zero_add]
    refine tsum_congr fun k => ?_
    simp only [hg, ht, abs_neg, Nat.abs_cast, Nat.cast_le]
    rw [if_pos (by omega), if_pos (by omega)]
  rw [← h4] at h3
  refine h1.trans (h3.trans ?_)
  have hn' : (0 : ℝ) < n := by exact_mod_cast hn
  have hm' : (0 : ℝ) < m := by exact_mod_cast hm1
  have k1 : (n : ℝ) / 2 ≤ m := by
    rw [div_le_iff₀ (by norm_num)]
    exact_mod_cast (by omega : n ≤ m * 2)
  have k2 : 2 * (2 * M) * (m : ℝ) ^ (0 + 1) / (m : ℝ) ^ (2 + q) = 4 * M / (m : ℝ) ^ (q + 1) := by
    rw [show 2 + q = 0 + 1 + (q + 1) by omega, pow_add (m : ℝ) (0 + 1)]
    field_simp
    ring
  rw [k2, show 2 + q - 1 = q + 1 by omega]
  refine (div_le_div_of_nonneg_left (by positivity) (by positivity) (pow_le_pow_left₀ (by positivity) k1 _)).trans (le_of_eq ?_)
  rw [div_pow]
  field_simp

/-- C116, `fourier_c2c`: the trigonometric polynomial with the coefficients that `forward` computes of the samples of a complex periodic function
with `p ≥ 2` continuous derivatives differs from the function by at most `C / n^(p - 1)`. -/
theorem C116_fourier_c2c (p : ℕ) (hp : 2 ≤ p) (f : ℝ → ℂ) (hf : ContDiff ℝ p f) (hper : Function.Periodic f (2 * Real.pi)) :
    ∃ C : ℝ, ∀ (n : ℕ) (_ : 1 ≤ n) (b : C2c) (_ : C2c.new n = ok b) (out : List ℂ), out.length = b.lenSpec →
      ∃ x c, b.coords = ok x ∧ b.forwardSlice (x.map f) out = ok c ∧ c.length = n ∧
        ∀ y, ‖trigC n c y - f y‖ ≤ C / (n : ℝ) ^ (p - 1) := by
  obtain ⟨a, M, h0, hM, hs, hsum⟩ := fourier_series p hp f hf hper
  refine ⟨8 * M * 2 ^ (p - 1), fun n hn b hb out ho => ?_⟩
  obtain ⟨x, c, e1, e2, e3, -, e5⟩ := C80_fourier_c2c n hn b hb a hs f hsum out ho
  refine ⟨x, c, e1, e2, e3, fun y => (e5 y).trans ?_⟩
  have h := int_tail h0 hp hM hs n hn
  rw [show 8 * M * 2 ^ (p - 1) / (n : ℝ) ^ (p - 1) = 2 * (4 * M * 2 ^ (p - 1) / (n : ℝ) ^ (p - 1)) by ring]
  exact mul_le_mul_of_nonneg_left h (by norm_num)

/-- C116 applies: `sin` is smooth and periodic, `1 - x²` satisfies the Dirichlet conditions. -/
example : (ContDiff ℝ 5 Real.sin ∧ Function.Periodic Real.sin (2 * Real.pi)) ∧
    ContDiffOn ℝ 6 (fun x : ℝ => 1 - x ^ 2) (Set.Icc (-1) 1) ∧ FunctionBC .dirichlet (fun x : ℝ => 1 - x ^ 2) :=
  ⟨⟨Real.contDiff_sin, Real.sin_periodic⟩, by fun_prop, by simp [FunctionBC, conditions, iteratedDerivWithin_zero]⟩

end Verif.Props
