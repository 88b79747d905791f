/- Differentiation matrices: loops and machine integers. -/
import Verif.Model.Ortho
import Verif.Proof.Usize
import Verif.Proof.ChebGrad
import Verif.Spec.Sizes

namespace Verif
open Res Spec Finset
variable {K : Type} [Field K] [DecidableEq K] {Q : Err → Prop}

/-- inner loop: fills row `p` -/
theorem wp_rowLoop {n c p : ℕ} {cond : ℕ → Prop} [DecidablePred cond] {E : ℕ → K}
    {body : ℕ → Mat K → Res (Mat K)} {d : Mat K} {P : Mat K → Prop}
    (hd : d.rows = n ∧ d.cols = n)
    (hbody : ∀ q, p + c ≤ q → q < n → ∀ d : Mat K, d.rows = n → d.cols = n →
      wp Q (body q d) (fun d' => d' = if cond q then d.upd p q (E q) else d))
    (hP : ∀ d' : Mat K, d'.rows = n → d'.cols = n →
      (∀ i j, d'.get i j = if i = p ∧ p + c ≤ j ∧ j < n ∧ cond j then E j else d.get i j) → P d') :
    wp Q (forRange (p + c) n body d) P := by
  refine wp_forRange (fun k d' => d'.rows = n ∧ d'.cols = n ∧
    ∀ i j, d'.get i j = if i = p ∧ p + c ≤ j ∧ j < k ∧ cond j then E j else d.get i j)
    ⟨hd.1, hd.2, fun i j => ?_⟩ ?_ ?_
  · rw [if_neg (by omega)]
  · rintro q d' h1 h2 ⟨h3, h4, h5⟩
    refine wp_mono (hbody q h1 h2 d' h3 h4) ?_
    rintro _ rfl
    by_cases hq : cond q
    · rw [if_pos hq]
      refine ⟨h3, h4, fun i j => ?_⟩
      rw [Mat.upd_get, h5]
      by_cases hij : i = p ∧ j = q
      · obtain ⟨rfl, rfl⟩ := hij
        rw [if_pos ⟨rfl, rfl⟩, if_pos ⟨rfl, h1, by omega, hq⟩]
      · rw [if_neg hij]
        exact if_congr ⟨fun ⟨a, b, c, d⟩ => ⟨a, b, by omega, d⟩,
          fun ⟨a, b, c, d⟩ => ⟨a, b, by omega, d⟩⟩ rfl rfl
    · rw [if_neg hq]
      refine ⟨h3, h4, fun i j => ?_⟩
      rw [h5]
      refine if_congr ⟨fun ⟨a, b, c, d⟩ => ⟨a, b, by omega, d⟩, fun ⟨a, b, c, d⟩ => ⟨a, b, ?_, d⟩⟩
        rfl rfl
      rcases Nat.lt_succ_iff_lt_or_eq.mp c with h | rfl
      · exact h
      · exact absurd d hq
  · rintro d' ⟨h1, h2, h3⟩
    refine hP d' h1 h2 (fun i j => ?_)
    rw [h3]
    exact if_congr ⟨fun ⟨a, b, c, d⟩ => ⟨a, b, by omega, d⟩,
          fun ⟨a, b, c, d⟩ => ⟨a, b, by omega, d⟩⟩ rfl rfl

/-- the two nested loops of `_dmat` -/
theorem wp_dmatLoop {n c : ℕ} {cond : ℕ → ℕ → Prop} [∀ p, DecidablePred (cond p)] {E : ℕ → ℕ → K}
    {body : ℕ → Mat K → Res (Mat K)} {P : Mat K → Prop}
    (hbody : ∀ p < n, ∀ d : Mat K, d.rows = n → d.cols = n →
      wp Q (body p d) (fun d' => d'.rows = n ∧ d'.cols = n ∧
        ∀ i j, d'.get i j = if i = p ∧ p + c ≤ j ∧ j < n ∧ cond p j then E p j else d.get i j))
    (hP : ∀ d' : Mat K, d'.rows = n → d'.cols = n →
      (∀ i < n, ∀ j < n, d'.get i j = if i + c ≤ j ∧ cond i j then E i j else 0) → P d') :
    wp Q (forRange 0 n body (Mat.zeros n n)) P := by
  refine wp_forRange (fun k d' => d'.rows = n ∧ d'.cols = n ∧
    ∀ i j, d'.get i j = if i < k ∧ i + c ≤ j ∧ j < n ∧ cond i j then E i j else 0)
    ⟨rfl, rfl, by simp⟩ ?_ ?_
  · rintro p d - hp ⟨h1, h2, h3⟩
    refine wp_mono (hbody p hp d h1 h2) ?_
    rintro d' ⟨h4, h5, h6⟩
    refine ⟨h4, h5, fun i j => ?_⟩
    rw [h6, h3]
    rcases Nat.lt_trichotomy i p with h | rfl | h
    · rw [if_neg (by omega)]
      exact if_congr ⟨fun ⟨a, b⟩ => ⟨by omega, b⟩, fun ⟨a, b⟩ => ⟨by omega, b⟩⟩ rfl rfl
    · by_cases hc : i + c ≤ j ∧ j < n ∧ cond i j
      · rw [if_pos ⟨rfl, hc⟩, if_pos ⟨by omega, hc⟩]
      · rw [if_neg (fun h => hc h.2), if_neg (fun h => hc h.2), if_neg (fun h => hc h.2)]
    · rw [if_neg (by omega), if_neg (by omega), if_neg (by omega)]
  · rintro d' ⟨h1, h2, h3⟩
    refine hP d' h1 h2 (fun i hi j hj => ?_)
    rw [h3]
    exact if_congr ⟨fun ⟨a, b, c, d⟩ => ⟨b, d⟩, fun ⟨b, d⟩ => ⟨by omega, b, hj, d⟩⟩ rfl rfl

/-! ### The true entries -/

/-- the integer numerators -/
def zEnt : ℕ → ℤ → ℤ → ℤ
  | 1, _, q => 2 * q
  | 2, p, q => q * (q ^ 2 - p ^ 2)
  | 3, p, q => q * (((q - p) ^ 2 - 1) * ((q + p) ^ 2 - 1))
  | 4, p, q => q * ((q ^ 2 - p ^ 2) * ((q - p) ^ 2 - 4) * ((q + p) ^ 2 - 4))
  | _, _, _ => 0

/-- the denominators -/
def zDen : ℕ → ℕ
  | 3 => 4
  | 4 => 24
  | _ => 1

/-- unhalved entries of the `k`-th differentiation matrix -/
def dTrue (K : Type) [Field K] (k p q : ℕ) : K :=
  if k = 0 then (if p = q then 1 else 0)
  else if p + k ≤ q ∧ (p + q) % 2 = k % 2 then ((zEnt k p q : ℤ) : K) / (zDen k : K) else 0

theorem dTrue_rec [CharZero K] (k i q : ℕ) (hk : k < 4) :
    dTrue K (k + 1) i q = dTrue K (k + 1) (i + 2) q + (2 * ((i : K) + 1)) * dTrue K k (i + 1) q := by
  unfold dTrue
  simp only [show ¬ (k + 1 = 0) by omega, if_false]
  by_cases hc : i + (k + 1) ≤ q ∧ (i + q) % 2 = (k + 1) % 2
  · rw [if_pos hc]
    by_cases h2 : i + 2 + (k + 1) ≤ q ∧ (i + 2 + q) % 2 = (k + 1) % 2
    · rw [if_pos h2]
      by_cases h0 : k = 0
      · subst h0
        rw [if_pos rfl, if_neg (by omega)]
        simp [zEnt, zDen]
      · rw [if_neg h0, if_pos (by omega)]
        have : k = 1 ∨ k = 2 ∨ k = 3 := by omega
        rcases this with rfl | rfl | rfl <;> simp only [zEnt, zDen] <;> push_cast <;> ring
    · rw [if_neg h2]
      obtain rfl : q = i + (k + 1) := by omega
      by_cases h0 : k = 0
      · subst h0
        rw [if_pos rfl, if_pos (by omega)]
        simp [zEnt, zDen]
      · rw [if_neg h0, if_pos (by omega)]
        have : k = 1 ∨ k = 2 ∨ k = 3 := by omega
        rcases this with rfl | rfl | rfl <;> simp only [zEnt, zDen] <;> push_cast <;> ring
  · rw [if_neg hc, if_neg (by omega)]
    by_cases h0 : k = 0
    · subst h0
      rw [if_pos rfl, if_neg (by omega)]; simp
    · rw [if_neg h0, if_neg (by omega)]; simp

theorem dTrue_zero {k p q : ℕ} (h : q < p + k) : dTrue K k p q = 0 := by
  unfold dTrue
  by_cases h0 : k = 0
  · rw [if_pos h0, if_neg (by omega)]
  · rw [if_neg h0, if_neg (by omega)]

/-- with the first row halved -/
def hTrue (K : Type) [Field K] (k p q : ℕ) : K :=
  if p = 0 ∧ 1 ≤ k then dTrue K k p q * (1 / 2) else dTrue K k p q

theorem hTrue_gradRel [CharZero K] (k q n : ℕ) (hk : k < 4) (hq : q < n) :
    GradRel (T := K) K n (fun p => hTrue K k p q) (fun p => hTrue K (k + 1) p q) := by
  constructor
  · intro i hi
    unfold hTrue
    rw [dTrue_zero (by omega)]
    simp
  · intro i hi
    unfold hTrue
    rw [if_neg (by omega), if_neg (by omega), if_neg (by omega), dTrue_rec k i q hk, smul_eq_mul]
  · unfold hTrue
    rw [if_pos (by omega), if_neg (by omega), if_neg (by omega)]
    have := dTrue_rec (K := K) k 0 q hk
    simp only [Nat.cast_zero, zero_add, mul_one] at this
    rw [this, smul_eq_mul, smul_eq_mul]
    ring

/-- column `q` -/
def hCol (K : Type) [Field K] (k q n : ℕ) : List K := (List.range n).map (fun p => hTrue K k p q)

theorem nth_hCol (k q n p : ℕ) (hq : q < n) : nth (hCol K k q n) p = hTrue K k p q := by
  by_cases hp : p < n
  · exact nth_map_range _ _ _ hp
  · rw [nth_of_le _ _ (by simp [hCol]; omega)]
    unfold hTrue
    rw [dTrue_zero (by omega)]
    simp

/-- column `q` of the `k`-th matrix holds the coefficients of the `k`-th derivative of `T_q` -/
theorem hCol_deriv [CharZero K] (k q n : ℕ) (hk : k ≤ 4) (hq : q < n) (j : ℕ) (x : K) :
    chebDeriv K j (hCol K k q n) x
      = (Polynomial.derivative^[j + k] (Polynomial.Chebyshev.T K (q : ℤ))).eval x := by
  induction k generalizing j with
  | zero =>
    unfold chebDeriv
    rw [show (hCol K 0 q n).length = n by simp [hCol], Finset.sum_eq_single q]
    · rw [nth_hCol _ _ _ _ hq]; simp [hTrue, dTrue]
    · intro p _ hp
      rw [nth_hCol _ _ _ _ hq]; simp [hTrue, dTrue, hp]
    · intro h; exact absurd (mem_range.mpr hq) h
  | succ k ih =>
    rw [show j + (k + 1) = j + 1 + k by omega, ← ih (by omega) (j + 1)]
    have hrel := hTrue_gradRel (K := K) k q n (by omega) hq
    refine grad_deriv two_ne_zero (m := n) (by simp [hCol]) (by simp [hCol]) ?_ j x
    simpa only [funext (fun p => nth_hCol (K := K) k q n p hq),
      funext (fun p => nth_hCol (K := K) (k + 1) q n p hq)] using hrel

/-! ### The code computes the true entries -/

theorem cast_of_rep {x : ℕ} {z : ℤ} (h : Rep x z) (h0 : 0 ≤ z) (h1 : z < usizeW) :
    ((x : ℕ) : K) = ((z : ℤ) : K) := by
  rw [← h.eq_of_range h0 h1]; simp

theorem wp_dmat1 (o : Mode) (n : ℕ) (hn : n ≤ 2 ^ 63) :
    wp Q (dmat1 K o n) (fun d => d.rows = n ∧ d.cols = n ∧
      ∀ i < n, ∀ j < n, d.get i j = dTrue K 1 i j) := by
  unfold dmat1
  refine wp_dmatLoop (c := 1) (cond := fun p q => (p + q) % 2 ≠ 0)
    (E := fun p q => ((zEnt 1 p q : ℤ) : K)) ?_ ?_
  · intro p hp d h1 h2
    refine wp_rowLoop (cond := fun q => (p + q) % 2 ≠ 0) ⟨h1, h2⟩ ?_ (fun d' h3 h4 h5 => ⟨h3, h4, h5⟩)
    intro q hq1 hq2 d h1 h2
    refine wp_ite_i (fun hc => ?_) (fun hc => ?_)
    · simp only [wp_bind]
      refine wp_mul_exact (by unfold usizeW; omega) ?_
      refine Mat.wp_wrC_i (by omega) (by omega) ?_
      rw [if_pos hc]
      congr 1
      simp [zEnt]; ring
    · rw [if_neg hc]; rfl
  · intro d h1 h2 h3
    refine ⟨h1, h2, fun i hi j hj => ?_⟩
    rw [h3 i hi j hj]
    unfold dTrue
    rw [if_neg (show ¬ (1 = 0) by omega)]
    simp only [zDen, Nat.cast_one, div_one]
    exact if_congr (by omega) rfl rfl

theorem wp_dmat2 (o : Mode) (n : ℕ) (hn : n ≤ 2642246) :
    wp Q (dmat2 K o n) (fun d => d.rows = n ∧ d.cols = n ∧
      ∀ i < n, ∀ j < n, d.get i j = dTrue K 2 i j) := by
  unfold dmat2
  refine wp_dmatLoop (c := 2) (cond := fun p q => (p + q) % 2 = 0)
    (E := fun p q => ((zEnt 2 p q : ℤ) : K)) ?_ ?_
  · intro p hp d h1 h2
    refine wp_rowLoop (cond := fun q => (p + q) % 2 = 0) ⟨h1, h2⟩ ?_ (fun d' h3 h4 h5 => ⟨h3, h4, h5⟩)
    intro q hq1 hq2 d h1 h2
    refine wp_ite_i (fun hc => ?_) (fun hc => ?_)
    · have hq : q ≤ 2642245 := by omega
      have b1 : q * q ≤ 2642245 * 2642245 := Nat.mul_le_mul hq hq
      have b2 : p * p ≤ q * q := Nat.mul_le_mul (by omega) (by omega)
      have b3 : q * (q * q - p * p) ≤ 2642245 * (2642245 * 2642245) :=
        Nat.mul_le_mul hq (by omega)
      simp only [wp_bind]
      refine wp_mul_exact (by unfold usizeW; omega) ?_
      refine wp_mul_exact (by unfold usizeW; omega) ?_
      refine wp_sub_exact b2 ?_
      refine wp_mul_exact (by unfold usizeW; omega) ?_
      refine Mat.wp_wrC_i (by omega) (by omega) ?_
      rw [if_pos hc]
      congr 1
      rw [Nat.cast_mul, Nat.cast_sub b2]
      simp [zEnt]; ring_nf; simp
    · rw [if_neg hc]; rfl
  · intro d h1 h2 h3
    refine ⟨h1, h2, fun i hi j hj => ?_⟩
    rw [h3 i hi j hj]
    unfold dTrue
    rw [if_neg (show ¬ (2 = 0) by omega)]
    simp only [zDen, Nat.cast_one, div_one]

/-- a run that cannot return and can only fail by panicking, panics -/
theorem panics_of_wp {α : Type} {r : Res α} (H : wp (fun e => e = .panic) r (fun _ => False)) :
    r = err .panic := by
  cases r with
  | ok a => exact H.elim
  | err e => rw [show e = .panic from H]

/-! third derivative -/

theorem z3_nonneg {p q : ℕ} (h : p + 3 ≤ q) : 0 ≤ zEnt 3 p q := by
  have h1 : (p : ℤ) + 3 ≤ q := by exact_mod_cast h
  have hp : (0 : ℤ) ≤ p := by positivity
  unfold zEnt
  refine mul_nonneg (by positivity) (mul_nonneg ?_ ?_) <;> nlinarith

theorem z3_lt {p q : ℕ} (h : p + 3 ≤ q) (hq : q ≤ 7131) : zEnt 3 p q < (usizeW : ℤ) := by
  have h1 : (p : ℤ) + 3 ≤ q := by exact_mod_cast h
  have hp : (0 : ℤ) ≤ p := by positivity
  have hq' : (q : ℤ) ≤ 7131 := by exact_mod_cast hq
  unfold zEnt
  have hS : (q : ℤ) ^ 2 ≤ 7131 ^ 2 := by nlinarith
  have e1 : ((((q : ℤ) - p) ^ 2 - 1) * (((q : ℤ) + p) ^ 2 - 1)) ≤ (7131 ^ 2) ^ 2 := by
    have : ((((q : ℤ) - p) ^ 2 - 1) * (((q : ℤ) + p) ^ 2 - 1))
        = ((q : ℤ) ^ 2 - p ^ 2) ^ 2 - 2 * ((q : ℤ) ^ 2 + p ^ 2) + 1 := by ring
    rw [this]
    have a1 : 0 ≤ (q : ℤ) ^ 2 - p ^ 2 := by nlinarith
    have a2 : (q : ℤ) ^ 2 - p ^ 2 ≤ 7131 ^ 2 := by nlinarith
    have a3 : ((q : ℤ) ^ 2 - p ^ 2) ^ 2 ≤ (7131 ^ 2) ^ 2 := by nlinarith
    nlinarith
  calc (q : ℤ) * _ ≤ q * (7131 ^ 2) ^ 2 := mul_le_mul_of_nonneg_left e1 (by positivity)
    _ ≤ 7131 * (7131 ^ 2) ^ 2 := mul_le_mul_of_nonneg_right hq' (by positivity)
    _ < usizeW := by norm_num

theorem wp_dmat3Entry_release (p q p2 q2 : ℕ) (hq : q < usizeW) (h1 : Rep p2 ((p : ℤ) ^ 2))
    (h2 : Rep q2 ((q : ℤ) ^ 2)) :
    wp Q (dmat3Entry .release p2 q2 q) (fun x => Rep x (zEnt 3 p q)) := by
  unfold dmat3Entry
  simp only [wp_bind]
  refine wp_sub_rep h2 (rep_self (by norm_num)) fun a ha => ?_
  refine wp_mul_rep h2 ha fun b hb => ?_
  refine wp_mul_rep (rep_self (by norm_num)) h2 fun c hc => ?_
  refine wp_mul_rep hc h1 fun d hd => ?_
  refine wp_sub_rep hb hd fun e he => ?_
  refine wp_mul_rep h1 h1 fun f hf => ?_
  refine wp_add_rep he hf fun g hg => ?_
  refine wp_mul_rep (rep_self (by norm_num)) h1 fun i hi => ?_
  refine wp_sub_rep hg hi fun j hj => ?_
  refine wp_add_rep hj (rep_self (by norm_num)) fun k hk => ?_
  refine wp_mul_rep (rep_self hq) hk fun l hl => ?_
  convert hl using 1
  unfold zEnt
  push_cast
  ring

theorem wp_sq_rep (q : ℕ) (hq : q < usizeW) {P : ℕ → Prop}
    (hp : ∀ x, Rep x ((q : ℤ) ^ 2) → P x) : wp Q (Mode.release.mul q q) P :=
  wp_mul_rep (rep_self hq) (rep_self hq) fun x hx => hp x (by rwa [sq])

/-- in release mode the entries are the true ones reduced modulo `2^64` -/
theorem wp_dmat3_release [CharZero K] (n : ℕ) (hn : n ≤ usizeW) :
    wp Q (dmat3 K .release n) (fun d => d.rows = n ∧ d.cols = n ∧
      ∀ i < n, ∀ j < n, d.get i j = if i + 3 ≤ j ∧ (i + j) % 2 ≠ 0 then
        (((zEnt 3 i j % (usizeW : ℤ) : ℤ)) : K) / 4 else 0) := by
  unfold dmat3
  refine wp_dmatLoop (c := 3) (cond := fun p q => (p + q) % 2 ≠ 0)
    (E := fun p q => (((zEnt 3 p q % (usizeW : ℤ) : ℤ)) : K) / 4) ?_
    (fun d h1 h2 h3 => ⟨h1, h2, h3⟩)
  intro p hp d h1 h2
  simp only [wp_bind]
  refine wp_sq_rep p (by omega) fun p2 hp2 => ?_
  refine wp_rowLoop (cond := fun q => (p + q) % 2 ≠ 0) ⟨h1, h2⟩ ?_ (fun d' h3 h4 h5 => ⟨h3, h4, h5⟩)
  intro q hq1 hq2 d h1 h2
  simp only [wp_bind]
  refine wp_sq_rep q (by omega) fun q2 hq2' => ?_
  refine wp_ite_i (fun hc => ?_) (fun hc => ?_)
  · simp only [wp_bind]
    refine wp_mono (wp_dmat3Entry_release p q p2 q2 (by omega) hp2 hq2') fun x hx => ?_
    refine wp_div_i (fun _ => ?_) (fun h => absurd h (by norm_num))
    refine Mat.wp_wrC_i (by omega) (by omega) ?_
    rw [if_pos hc]
    congr 1
    unfold Rep at hx
    rw [← hx, smul_eq_mul, div_eq_inv_mul]
    simp
  · rw [if_neg hc]; rfl

theorem wp_dmat3_debug [CharZero K] (n : ℕ) (hn : n ≤ 11) :
    wp Q (dmat3 K .debug n) (fun d => d.rows = n ∧ d.cols = n ∧
      ∀ i < n, ∀ j < n, d.get i j = dTrue K 3 i j) := by
  have small : ∀ q < 11, ∀ p < 11, p + 3 ≤ q → (p + q) % 2 ≠ 0 →
      dmat3Entry .debug (p * p) (q * q) q = ok (zEnt 3 p q).toNat := by decide
  unfold dmat3
  refine wp_dmatLoop (c := 3) (cond := fun p q => (p + q) % 2 ≠ 0)
    (E := fun p q => (((zEnt 3 p q : ℤ)) : K) / 4) ?_ ?_
  · intro p hp d h1 h2
    simp only [wp_bind]
    refine wp_mul_exact (by unfold usizeW; nlinarith) ?_
    refine wp_rowLoop (cond := fun q => (p + q) % 2 ≠ 0) ⟨h1, h2⟩ ?_ (fun d' h3 h4 h5 => ⟨h3, h4, h5⟩)
    intro q hq1 hq2 d h1 h2
    simp only [wp_bind]
    refine wp_mul_exact (by unfold usizeW; nlinarith) ?_
    refine wp_ite_i (fun hc => ?_) (fun hc => ?_)
    · simp only [wp_bind]
      rw [small q (by omega) p (by omega) hq1 hc]
      simp only [wp_ok]
      refine wp_div_i (fun _ => ?_) (fun h => absurd h (by norm_num))
      refine Mat.wp_wrC_i (by omega) (by omega) ?_
      rw [if_pos hc]
      congr 1
      have e : (((zEnt 3 p q).toNat : ℕ) : ℤ) = zEnt 3 p q := Int.toNat_of_nonneg (z3_nonneg hq1)
      rw [smul_eq_mul, div_eq_inv_mul]
      congr 1
      exact_mod_cast congrArg (fun z : ℤ => (z : K)) e
    · rw [if_neg hc]; rfl
  · intro d h1 h2 h3
    refine ⟨h1, h2, fun i hi j hj => ?_⟩
    rw [h3 i hi j hj]
    unfold dTrue
    rw [if_neg (show ¬ (3 = 0) by omega)]
    simp only [zDen, Nat.cast_ofNat]
    exact if_congr (by omega) rfl rfl

/-- debug builds panic for every `n ≥ 12` -/
theorem dmat3_debug_panics (n : ℕ) (hn : 12 ≤ n) [CharZero K] : dmat3 K .debug n = err .panic := by
  apply panics_of_wp
  unfold dmat3
  refine wp_forRange (fun k d => k ≤ 8 ∧ d.rows = n ∧ d.cols = n) ⟨by omega, rfl, rfl⟩ ?_
    (fun d h => by omega)
  rintro p d - hp ⟨h8, h1, h2⟩
  simp only [wp_bind]
  rcases Nat.lt_or_ge p 8 with hp8 | hp8
  · refine wp_mul_safe fun p2 => ?_
    refine wp_forRange (fun _ d => d.rows = n ∧ d.cols = n) ⟨h1, h2⟩ ?_
      (fun d h => ⟨by omega, h⟩)
    rintro q d hq1 hq2 ⟨h1, h2⟩
    simp only [wp_bind]
    refine wp_mul_safe fun q2 => ?_
    refine wp_ite_i (fun hc => ?_) (fun hc => ⟨h1, h2⟩)
    simp only [wp_bind]
    unfold dmat3Entry
    simp only [wp_bind]
    refine wp_sub_safe fun _ => wp_mul_safe fun _ => wp_mul_safe fun _ => wp_mul_safe fun _ =>
      wp_sub_safe fun _ => wp_mul_safe fun _ => wp_add_safe fun _ => wp_mul_safe fun _ =>
      wp_sub_safe fun _ => wp_add_safe fun _ => wp_mul_safe fun _ => ?_
    refine wp_div_i (fun _ => ?_) (fun h => absurd h (by norm_num))
    exact Mat.wp_wrC_i (by omega) (by omega) ⟨h1, h2⟩
  · obtain rfl : p = 8 := by omega
    refine wp_mul_exact (by norm_num) ?_
    unfold forRange
    obtain ⟨r, hr⟩ : ∃ r, n - (8 + 3) = r + 1 := ⟨n - 12, by omega⟩
    rw [hr, List.range'_succ]
    have : (do
        let q2 ← Mode.debug.mul (8 + 3) (8 + 3)
        (if (8 + (8 + 3)) % 2 ≠ 0 then do
          d.wrC 8 (8 + 3) (← divR ((← dmat3Entry .debug (8 * 8) q2 (8 + 3) : ℕ) : K) (4 : K))
        else pure d)) = err .panic := rfl
    rw [forList, wp_bind, this]
    rfl

theorem wp_dmat2_release (n : ℕ) (hn : n ≤ usizeW) :
    wp Q (dmat2 K .release n) (fun d => d.rows = n ∧ d.cols = n ∧
      ∀ i < n, ∀ j < n, d.get i j = if i + 2 ≤ j ∧ (i + j) % 2 = 0 then
        (((zEnt 2 i j % (usizeW : ℤ) : ℤ)) : K) else 0) := by
  unfold dmat2
  refine wp_dmatLoop (c := 2) (cond := fun p q => (p + q) % 2 = 0)
    (E := fun p q => (((zEnt 2 p q % (usizeW : ℤ) : ℤ)) : K)) ?_
    (fun d h1 h2 h3 => ⟨h1, h2, h3⟩)
  intro p hp d h1 h2
  refine wp_rowLoop (cond := fun q => (p + q) % 2 = 0) ⟨h1, h2⟩ ?_ (fun d' h3 h4 h5 => ⟨h3, h4, h5⟩)
  intro q hq1 hq2 d h1 h2
  refine wp_ite_i (fun hc => ?_) (fun hc => ?_)
  · simp only [wp_bind]
    refine wp_sq_rep q (by omega) fun q2 hq2' => ?_
    refine wp_sq_rep p (by omega) fun p2 hp2 => ?_
    refine wp_sub_rep hq2' hp2 fun a ha => ?_
    refine wp_mul_rep (rep_self (by omega)) ha fun x hx => ?_
    refine Mat.wp_wrC_i (by omega) (by omega) ?_
    rw [if_pos hc]
    congr 1
    unfold Rep at hx
    rw [show zEnt 2 (p : ℤ) (q : ℤ) = (q : ℤ) * ((q : ℤ) ^ 2 - (p : ℤ) ^ 2) from rfl, ← hx]
    simp
  · rw [if_neg hc]; rfl

/-! fourth derivative -/

theorem wp_mul_ex {o : Mode} {a b : ℕ} {y z : ℤ} {P : ℕ → Prop} (ha : (a : ℤ) = y)
    (hb : (b : ℤ) = z) (h : y * z < usizeW) (hp : ∀ x : ℕ, (x : ℤ) = y * z → P x) :
    wp Q (o.mul a b) P := by
  subst ha hb
  exact wp_mul_exact (by exact_mod_cast h) (hp _ (by push_cast; rfl))
theorem wp_add_ex {o : Mode} {a b : ℕ} {y z : ℤ} {P : ℕ → Prop} (ha : (a : ℤ) = y)
    (hb : (b : ℤ) = z) (h : y + z < usizeW) (hp : ∀ x : ℕ, (x : ℤ) = y + z → P x) :
    wp Q (o.add a b) P := by
  subst ha hb
  exact wp_add_exact (by exact_mod_cast h) (hp _ (by push_cast; rfl))
theorem wp_sub_ex {o : Mode} {a b : ℕ} {y z : ℤ} {P : ℕ → Prop} (ha : (a : ℤ) = y)
    (hb : (b : ℤ) = z) (h : z ≤ y) (hp : ∀ x : ℕ, (x : ℤ) = y - z → P x) :
    wp Q (o.sub a b) P := by
  subst ha hb
  have h' : b ≤ a := by exact_mod_cast h
  exact wp_sub_exact h' (hp _ (by push_cast [h']; rfl))

theorem z4_nonneg {p q : ℕ} (h : p + 4 ≤ q) : 0 ≤ zEnt 4 p q := by
  have h1 : (p : ℤ) + 4 ≤ q := by exact_mod_cast h
  have hp : (0 : ℤ) ≤ p := by positivity
  unfold zEnt
  refine mul_nonneg (by positivity) (mul_nonneg (mul_nonneg ?_ ?_) ?_) <;> nlinarith

set_option maxHeartbeats 1000000 in
theorem wp_dmat4Entry (o : Mode) {p q : ℕ} (hpq : p + 4 ≤ q) (hq : q ≤ 565) {p2 p4 q2 q4 : ℕ}
    (h1 : (p2 : ℤ) = (p : ℤ) ^ 2) (h2 : (p4 : ℤ) = (p : ℤ) ^ 4)
    (h3 : (q2 : ℤ) = (q : ℤ) ^ 2) (h4 : (q4 : ℤ) = (q : ℤ) ^ 4) :
    wp Q (dmat4Entry o p2 p4 q2 q4 q) (fun x => (x : ℤ) = zEnt 4 p q) := by
  have hpq' : (p : ℤ) + 4 ≤ q := by exact_mod_cast hpq
  have hp0 : (0 : ℤ) ≤ p := by positivity
  have hq' : (q : ℤ) ≤ 565 := by exact_mod_cast hq
  obtain ⟨S, hS⟩ : ∃ S : ℤ, S = (q : ℤ) ^ 2 := ⟨_, rfl⟩
  obtain ⟨R, hR⟩ : ∃ R : ℤ, R = (p : ℤ) ^ 2 := ⟨_, rfl⟩
  have e4p : (p : ℤ) ^ 4 = R ^ 2 := by rw [hR]; ring
  have e4q : (q : ℤ) ^ 4 = S ^ 2 := by rw [hS]; ring
  have hR0 : 0 ≤ R := by rw [hR]; positivity
  have hRS : R + 16 ≤ S := by rw [hR, hS]; nlinarith
  have hSm : S ≤ 319225 := by rw [hS]; nlinarith
  have hS0 : 0 ≤ S := by linarith
  have fin : 0 ≤ (S - R) * (((q : ℤ) - p) ^ 2 - 4) * (((q : ℤ) + p) ^ 2 - 4) := by
    refine mul_nonneg (mul_nonneg (by linarith) ?_) ?_ <;> nlinarith
  have fin_eq : (S - R) * (((q : ℤ) - p) ^ 2 - 4) * (((q : ℤ) + p) ^ 2 - 4)
      = S * (S - 4) * (S - 4) + 3 * S * R ^ 2 - R * R ^ 2 + 8 * R ^ 2 - 16 * R - 3 * S ^ 2 * R := by
    rw [hS, hR]; ring
  have bS2 : S * S ≤ 319225 * S := mul_le_mul_of_nonneg_right hSm hS0
  have bS2' : S ^ 2 ≤ 319225 ^ 2 := by nlinarith
  have bS3 : S ^ 3 ≤ 319225 ^ 3 := pow_le_pow_left₀ hS0 hSm 3
  have bR2 : R ^ 2 ≤ S ^ 2 := by nlinarith
  have bR20 : 0 ≤ R ^ 2 := by positivity
  have b1 : S * (S - 4) ≤ S ^ 2 := by linarith [show S * (S - 4) = S ^ 2 - 4 * S by ring]
  have b2 : S * (S - 4) * (S - 4) ≤ S ^ 3 := by
    have y1 := mul_le_mul_of_nonneg_right b1 (show 0 ≤ S - 4 by linarith)
    have y2 : 0 ≤ S ^ 2 := by positivity
    linarith [show S ^ 2 * (S - 4) = S ^ 3 - 4 * S ^ 2 by ring]
  have b20 : 0 ≤ S * (S - 4) * (S - 4) := mul_nonneg (mul_nonneg hS0 (by linarith)) (by linarith)
  have b3 : S * R ^ 2 ≤ S ^ 3 := by
    linarith [mul_le_mul_of_nonneg_left bR2 hS0, show S * S ^ 2 = S ^ 3 by ring]
  have b30 : 0 ≤ S * R ^ 2 := by positivity
  have b4 : R * R ^ 2 ≤ S * R ^ 2 := mul_le_mul_of_nonneg_right (by linarith) bR20
  have b40 : 0 ≤ R * R ^ 2 := by positivity
  have b5 : S ^ 2 * R ≤ S ^ 3 := by
    linarith [mul_le_mul_of_nonneg_left (show R ≤ S by linarith) (show (0 : ℤ) ≤ S ^ 2 by positivity),
      show S ^ 2 * S = S ^ 3 by ring]
  have b50 : 0 ≤ S ^ 2 * R := by positivity
  rw [fin_eq] at fin
  rw [← hS] at h3
  rw [← hR] at h1
  rw [e4p] at h2
  rw [e4q] at h4
  unfold dmat4Entry
  simp only [wp_bind]
  have W : (usizeW : ℤ) = 18446744073709551616 := by norm_num
  norm_num at bS3 bS2'
  refine wp_sub_ex h3 (z := 4) (by norm_num) (by linarith) fun a ha => ?_
  refine wp_mul_ex h3 ha (by rw [W]; linarith) fun b hb => ?_
  refine wp_sub_ex h3 (z := 4) (by norm_num) (by linarith) fun c hc => ?_
  refine wp_mul_ex hb hc (by rw [W]; linarith) fun t1 ht1 => ?_
  refine wp_mul_ex (y := 3) (by norm_num) h3 (by rw [W]; linarith) fun d hd => ?_
  refine wp_mul_ex hd h2 (by rw [W]; linarith) fun t2 ht2 => ?_
  refine wp_add_ex ht1 ht2 (by rw [W]; linarith) fun s1 hs1 => ?_
  refine wp_mul_ex h1 h2 (by rw [W]; linarith) fun u1 hu1 => ?_
  refine wp_sub_ex hs1 hu1 (by linarith) fun s2 hs2 => ?_
  refine wp_mul_ex (y := 8) (by norm_num) h2 (by rw [W]; linarith) fun u2 hu2 => ?_
  refine wp_add_ex hs2 hu2 (by rw [W]; linarith) fun s3 hs3 => ?_
  refine wp_mul_ex (y := 16) (by norm_num) h1 (by rw [W]; linarith) fun u3 hu3 => ?_
  refine wp_sub_ex hs3 hu3 (by linarith) fun s4 hs4 => ?_
  refine wp_mul_ex (y := 3) (by norm_num) h4 (by rw [W]; linarith) fun u4 hu4 => ?_
  refine wp_mul_ex hu4 h1 (by rw [W]; linarith) fun u5 hu5 => ?_
  refine wp_sub_ex hs4 hu5 (by linarith) fun s5 hs5 => ?_
  have top : S * (S - 4) * (S - 4) + 3 * S * R ^ 2 - R * R ^ 2 + 8 * R ^ 2 - 16 * R - 3 * S ^ 2 * R
      ≤ S ^ 3 := by
    have x0 : 0 ≤ S - R := by linarith
    have x1 : (S - R) * ((S - R) ^ 2 - 8 * (S + R) + 16) ≤ (S - R) * (S - R) ^ 2 :=
      mul_le_mul_of_nonneg_left (by linarith) x0
    have x2 : (S - R) ^ 3 ≤ S ^ 3 := pow_le_pow_left₀ x0 (by linarith) 3
    calc _ = (S - R) * ((S - R) ^ 2 - 8 * (S + R) + 16) := by ring
      _ ≤ _ := x1
      _ = (S - R) ^ 3 := by ring
      _ ≤ _ := x2
  refine wp_mul_ex (y := (q : ℤ)) rfl hs5 ?_ fun x hx => ?_
  · rw [W]
    have k1 := mul_le_mul_of_nonneg_left (top.trans bS3) (show (0 : ℤ) ≤ q by positivity)
    have k2 : (q : ℤ) * 32531023910015625 ≤ 565 * 32531023910015625 := by linarith
    linarith
  · rw [hx]
    show _ = (q : ℤ) * (((q : ℤ) ^ 2 - (p : ℤ) ^ 2) * (((q : ℤ) - p) ^ 2 - 4) * (((q : ℤ) + p) ^ 2 - 4))
    rw [← hS, ← hR, ← fin_eq]

theorem wp_dmat4 [CharZero K] (o : Mode) (n : ℕ) (hn : n ≤ 566) :
    wp Q (dmat4 K o n) (fun d => d.rows = n ∧ d.cols = n ∧
      ∀ i < n, ∀ j < n, d.get i j = dTrue K 4 i j) := by
  have W : (usizeW : ℤ) = 18446744073709551616 := by norm_num
  have sq : ∀ q : ℕ, q ≤ 565 → ((q : ℤ) * q ≤ 319225 ∧ (q : ℤ) * q * q ≤ 180362125 ∧
      (q : ℤ) * q * q * q ≤ 101904600625) := by
    intro q hq
    have h0 : (0 : ℤ) ≤ q := by positivity
    have hq' : (q : ℤ) ≤ 565 := by exact_mod_cast hq
    have a : (q : ℤ) * q ≤ 565 * 565 := mul_le_mul hq' hq' h0 (by norm_num)
    have b : (q : ℤ) * q * q ≤ 565 * 565 * 565 := mul_le_mul a hq' h0 (by norm_num)
    have c : (q : ℤ) * q * q * q ≤ 565 * 565 * 565 * 565 := mul_le_mul b hq' h0 (by norm_num)
    norm_num at a b c
    exact ⟨a, b, c⟩
  unfold dmat4
  refine wp_dmatLoop (c := 4) (cond := fun p q => (p + q) % 2 = 0)
    (E := fun p q => (((zEnt 4 p q : ℤ)) : K) / 24) ?_ ?_
  · intro p hp d h1 h2
    simp only [wp_bind]
    obtain ⟨k1, k2, k3⟩ := sq p (by omega)
    refine wp_mul_ex (y := (p : ℤ)) rfl rfl (by linarith) fun p2 hp2 => ?_
    refine wp_mul_ex (y := (p : ℤ)) rfl rfl (by linarith) fun a ha => ?_
    refine wp_mul_ex ha rfl (by linarith) fun b hb => ?_
    refine wp_mul_ex hb rfl (by linarith) fun p4 hp4 => ?_
    refine wp_rowLoop (cond := fun q => (p + q) % 2 = 0) ⟨h1, h2⟩ ?_ (fun d' h3 h4 h5 => ⟨h3, h4, h5⟩)
    intro q hq1 hq2 d h1 h2
    simp only [wp_bind]
    obtain ⟨l1, l2, l3⟩ := sq q (by omega)
    refine wp_mul_ex (y := (q : ℤ)) rfl rfl (by linarith) fun q2 hq2' => ?_
    refine wp_mul_ex (y := (q : ℤ)) rfl rfl (by linarith) fun a' ha' => ?_
    refine wp_mul_ex ha' rfl (by linarith) fun b' hb' => ?_
    refine wp_mul_ex hb' rfl (by linarith) fun q4 hq4 => ?_
    refine wp_ite_i (fun hc => ?_) (fun hc => ?_)
    · simp only [wp_bind]
      refine wp_mono (wp_dmat4Entry o hq1 (by omega) (p2 := p2) (p4 := p4) (q2 := q2) (q4 := q4)
        (by rw [hp2]; ring) (by rw [hp4]; ring) (by rw [hq2']; ring) (by rw [hq4]; ring)) fun x hx => ?_
      refine wp_div_i (fun _ => ?_) (fun h => absurd h (by norm_num))
      refine Mat.wp_wrC_i (by omega) (by omega) ?_
      rw [if_pos hc]
      congr 1
      rw [smul_eq_mul, div_eq_inv_mul]
      congr 1
      exact_mod_cast congrArg (fun z : ℤ => (z : K)) hx
    · rw [if_neg hc]; rfl
  · intro d h1 h2 h3
    refine ⟨h1, h2, fun i hi j hj => ?_⟩
    rw [h3 i hi j hj]
    unfold dTrue
    rw [if_neg (show ¬ (4 = 0) by omega)]
    simp only [zDen, Nat.cast_ofNat]

theorem wp_dmat4Entry_release {p q p2 p4 q2 q4 : ℕ} (hq : q < usizeW)
    (h1 : Rep p2 ((p : ℤ) ^ 2)) (h2 : Rep p4 ((p : ℤ) ^ 4))
    (h3 : Rep q2 ((q : ℤ) ^ 2)) (h4 : Rep q4 ((q : ℤ) ^ 4)) :
    wp Q (dmat4Entry .release p2 p4 q2 q4 q) (fun x => Rep x (zEnt 4 p q)) := by
  unfold dmat4Entry
  simp only [wp_bind]
  refine wp_sub_rep h3 (rep_self (by norm_num)) fun a ha => ?_
  refine wp_mul_rep h3 ha fun b hb => ?_
  refine wp_sub_rep h3 (rep_self (by norm_num)) fun c hc => ?_
  refine wp_mul_rep hb hc fun t1 ht1 => ?_
  refine wp_mul_rep (rep_self (by norm_num)) h3 fun d hd => ?_
  refine wp_mul_rep hd h2 fun t2 ht2 => ?_
  refine wp_add_rep ht1 ht2 fun s1 hs1 => ?_
  refine wp_mul_rep h1 h2 fun u1 hu1 => ?_
  refine wp_sub_rep hs1 hu1 fun s2 hs2 => ?_
  refine wp_mul_rep (rep_self (by norm_num)) h2 fun u2 hu2 => ?_
  refine wp_add_rep hs2 hu2 fun s3 hs3 => ?_
  refine wp_mul_rep (rep_self (by norm_num)) h1 fun u3 hu3 => ?_
  refine wp_sub_rep hs3 hu3 fun s4 hs4 => ?_
  refine wp_mul_rep (rep_self (by norm_num)) h4 fun u4 hu4 => ?_
  refine wp_mul_rep hu4 h1 fun u5 hu5 => ?_
  refine wp_sub_rep hs4 hu5 fun s5 hs5 => ?_
  refine wp_mul_rep (rep_self hq) hs5 fun x hx => ?_
  convert hx using 1
  unfold zEnt
  push_cast
  ring

theorem wp_pow4_rep (q : ℕ) (hq : q < usizeW) {P : ℕ → Prop}
    (hp : ∀ x, Rep x ((q : ℤ) ^ 4) → P x) :
    wp Q (Mode.release.mul q q) fun a => wp Q (Mode.release.mul a q) fun b =>
      wp Q (Mode.release.mul b q) P :=
  wp_mul_rep (rep_self hq) (rep_self hq) fun _ ha => wp_mul_rep ha (rep_self hq) fun _ hb =>
    wp_mul_rep hb (rep_self hq) fun x hx => hp x (by convert hx using 1; ring)

/-- in release mode the entries are the true ones reduced modulo `2^64` -/
theorem wp_dmat4_release [CharZero K] (n : ℕ) (hn : n ≤ usizeW) :
    wp Q (dmat4 K .release n) (fun d => d.rows = n ∧ d.cols = n ∧
      ∀ i < n, ∀ j < n, d.get i j = if i + 4 ≤ j ∧ (i + j) % 2 = 0 then
        (((zEnt 4 i j % (usizeW : ℤ) : ℤ)) : K) / 24 else 0) := by
  unfold dmat4
  refine wp_dmatLoop (c := 4) (cond := fun p q => (p + q) % 2 = 0)
    (E := fun p q => (((zEnt 4 p q % (usizeW : ℤ) : ℤ)) : K) / 24) ?_
    (fun d h1 h2 h3 => ⟨h1, h2, h3⟩)
  intro p hp d h1 h2
  simp only [wp_bind]
  refine wp_sq_rep p (by omega) fun p2 hp2 => ?_
  refine wp_pow4_rep p (by omega) fun p4 hp4 => ?_
  refine wp_rowLoop (cond := fun q => (p + q) % 2 = 0) ⟨h1, h2⟩ ?_ (fun d' h3 h4 h5 => ⟨h3, h4, h5⟩)
  intro q hq1 hq2 d h1 h2
  simp only [wp_bind]
  refine wp_sq_rep q (by omega) fun q2 hq2' => ?_
  refine wp_pow4_rep q (by omega) fun q4 hq4 => ?_
  refine wp_ite_i (fun hc => ?_) (fun hc => ?_)
  · simp only [wp_bind]
    refine wp_mono (wp_dmat4Entry_release (by omega) hp2 hp4 hq2' hq4) fun x hx => ?_
    refine wp_div_i (fun _ => ?_) (fun h => absurd h (by norm_num))
    refine Mat.wp_wrC_i (by omega) (by omega) ?_
    rw [if_pos hc]
    congr 1
    unfold Rep at hx
    rw [← hx, smul_eq_mul, div_eq_inv_mul]
    simp
  · rw [if_neg hc]; rfl

theorem wp_wrC_safe {m : Mat K} {i j : ℕ} {x : K} {P : Mat K → Prop} (hp : ∀ x, P x) :
    wp (fun e => e = .panic) (m.wrC i j x) P := by
  unfold Mat.wrC
  split
  · exact hp _
  · rfl

/-- debug builds panic for every `n ≥ 567` -/
theorem dmat4_debug_panics (n : ℕ) (hn : 567 ≤ n) [CharZero K] : dmat4 K .debug n = err .panic := by
  apply panics_of_wp
  unfold dmat4
  refine wp_forRange (fun k _ => k = 0) rfl ?_ (fun d h => by omega)
  rintro p d - hp rfl
  simp only [wp_bind]
  refine wp_mul_exact (by norm_num) ?_
  refine wp_mul_exact (by norm_num) (wp_mul_exact (by norm_num) (wp_mul_exact (by norm_num) ?_))
  refine wp_forRange (fun k _ => k ≤ 566) (by omega) ?_ (fun d h => by omega)
  rintro q d' hq1 hq2 h8
  rcases Nat.lt_or_ge q 566 with h | h
  · simp only [wp_bind]
    refine wp_mul_safe fun q2 => wp_mul_safe fun _ => wp_mul_safe fun _ => wp_mul_safe fun _ => ?_
    refine wp_ite_i (fun hc => ?_) (fun hc => by simp only [wp_pure]; omega)
    unfold dmat4Entry
    simp only [wp_bind]
    refine wp_sub_safe fun _ => wp_mul_safe fun _ => wp_sub_safe fun _ => wp_mul_safe fun _ =>
      wp_mul_safe fun _ => wp_mul_safe fun _ => wp_add_safe fun _ => wp_mul_safe fun _ =>
      wp_sub_safe fun _ => wp_mul_safe fun _ => wp_add_safe fun _ => wp_mul_safe fun _ =>
      wp_sub_safe fun _ => wp_mul_safe fun _ => wp_mul_safe fun _ => wp_sub_safe fun _ =>
      wp_mul_safe fun _ => ?_
    refine wp_div_i (fun _ => ?_) (fun h => absurd h (by norm_num))
    exact wp_wrC_safe fun _ => by omega
  · obtain rfl : q = 566 := by omega
    have e1 : Mode.debug.mul 566 566 = ok 320356 := by decide
    have e2 : Mode.debug.mul 320356 566 = ok 181321496 := by decide
    have e3 : Mode.debug.mul 181321496 566 = ok 102627966736 := by decide
    have e4 : dmat4Entry .debug (0 * 0) (0 * 0 * 0 * 0) 320356 102627966736 566 = err .panic := by
      decide
    rw [e1]
    simp only [bind_ok]
    rw [e2]
    simp only [bind_ok]
    rw [e3]
    simp only [bind_ok]
    rw [if_pos (by norm_num), e4]
    rfl

theorem dmat2_debug_panics (n : ℕ) (hn : 2642247 ≤ n) : dmat2 K .debug n = err .panic := by
  apply panics_of_wp
  unfold dmat2
  refine wp_forRange (fun k _ => k = 0) rfl ?_ (fun d h => by omega)
  rintro p d - hp rfl
  refine wp_forRange (fun k _ => k ≤ 2642246) (by omega) ?_ (fun d h => by omega)
  rintro q d' hq1 hq2 h8
  rcases Nat.lt_or_ge q 2642246 with h | h
  · refine wp_ite_i (fun hc => ?_) (fun hc => by simp only [wp_pure]; omega)
    simp only [wp_bind]
    refine wp_mul_safe fun _ => wp_mul_safe fun _ => wp_sub_safe fun _ => wp_mul_safe fun _ => ?_
    exact wp_wrC_safe fun _ => by omega
  · obtain rfl : q = 2642246 := by omega
    rw [if_pos (by norm_num)]
    have e1 : Mode.debug.mul 2642246 2642246 = ok 6981463924516 := by decide
    have e2 : Mode.debug.mul 0 0 = ok 0 := by decide
    have e3 : Mode.debug.sub 6981463924516 0 = ok 6981463924516 := by decide
    have e4 : Mode.debug.mul 2642246 6981463924516 = err .panic := by decide
    rw [e1]
    simp only [bind_ok]
    rw [e2]
    simp only [bind_ok]
    rw [e3]
    simp only [bind_ok]
    rw [e4]
    rfl

/-! the wrapper -/

/-- halving the first row -/
theorem wp_dmat_of {o : Mode} {n k : ℕ} {r : Res (Mat K)} {E : ℕ → ℕ → K} (hn : 0 < n)
    (hr : (if k = 1 then dmat1 K o n else if k = 2 then dmat2 K o n
      else if k = 3 then dmat3 K o n else if k = 4 then dmat4 K o n else err .panic) = r)
    (h : wp Q r (fun d => d.rows = n ∧ d.cols = n ∧ ∀ i < n, ∀ j < n, d.get i j = E i j)) :
    wp Q (dmat K o n k) (fun d => d.rows = n ∧ d.cols = n ∧
      ∀ i < n, ∀ j < n, d.get i j = if i = 0 then E i j * (1 / 2) else E i j) := by
  unfold dmat
  rw [hr]
  simp only [wp_bind]
  refine wp_mono h ?_
  rintro d ⟨h1, h2, h3⟩
  refine wp_assert_i hn ?_
  refine ⟨h1, h2, fun i hi j hj => ?_⟩
  dsimp only
  rw [h3 i hi j hj]

theorem wp_dmat [CharZero K] (o : Mode) {n k : ℕ} (hk : 1 ≤ k) (hk4 : k ≤ 4) (hn : 0 < n)
    (hm : n ≤ dmatMax o k) :
    wp Q (dmat K o n k) (fun d => d.rows = n ∧ d.cols = n ∧
      ∀ i < n, ∀ j < n, d.get i j = hTrue K k i j) := by
  have main : wp Q (if k = 1 then dmat1 K o n else if k = 2 then dmat2 K o n
      else if k = 3 then dmat3 K o n else if k = 4 then dmat4 K o n else err .panic)
      (fun d => d.rows = n ∧ d.cols = n ∧ ∀ i < n, ∀ j < n, d.get i j = dTrue K k i j) := by
    have : k = 1 ∨ k = 2 ∨ k = 3 ∨ k = 4 := by omega
    rcases this with rfl | rfl | rfl | rfl
    · exact wp_dmat1 o n (by simpa [dmatMax] using hm)
    · exact wp_dmat2 o n (by simpa [dmatMax] using hm)
    · cases o
      · exact wp_dmat3_debug n (by simpa [dmatMax] using hm)
      · have hm' : n ≤ 7132 := by simpa [dmatMax] using hm
        refine wp_mono (wp_dmat3_release (K := K) n (by unfold usizeW; omega)) ?_
        rintro d ⟨h1, h2, h3⟩
        refine ⟨h1, h2, fun i hi j hj => ?_⟩
        rw [h3 i hi j hj]
        unfold dTrue
        rw [if_neg (show ¬ (3 = 0) by omega)]
        by_cases hc : i + 3 ≤ j ∧ (i + j) % 2 ≠ 0
        · rw [if_pos hc, if_pos ⟨hc.1, by omega⟩,
            Int.emod_eq_of_lt (z3_nonneg hc.1) (z3_lt hc.1 (by omega))]
          simp [zDen]
        · rw [if_neg hc, if_neg (by omega)]
    · exact wp_dmat4 o n (by simpa [dmatMax] using hm)
  refine wp_mono (wp_dmat_of hn rfl main) ?_
  rintro d ⟨h1, h2, h3⟩
  refine ⟨h1, h2, fun i hi j hj => ?_⟩
  rw [h3 i hi j hj]
  unfold hTrue
  exact if_congr ⟨fun h => ⟨h, hk⟩, fun h => h.1⟩ rfl rfl

end Verif
