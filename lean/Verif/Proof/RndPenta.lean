/- The pentadiagonal solvers in arithmetic with rounding: the recurrences their results obey
(the counterpart of Proof/Penta, Proof/Pdma and Proof/Pdma2, whose arithmetic is exact). -/
import Verif.Proof.Rounding
import Verif.Proof.Pdma2

namespace Verif
open Res Spec
variable {R : Rounding}

section
variable {Q : Err → Prop}

theorem wp_div_rnd {x a : Rnd R} {P : Rnd R → Prop} (h : a.val ≠ 0 → P (x / a)) (h0 : a.val = 0 → Q .div0) :
    wp Q (divR x a) P := by
  by_cases ha : a.val = 0
  · rw [show divR x a = err .div0 from if_pos ha]; exact h0 ha
  · rw [Rnd.div_ok ha]; exact h ha

theorem Rnd.smul_eq (a b : Rnd R) : a • b = a * b := rfl

end

macro "rstep" : tactic => `(tactic| first
  | wpstep
  | with_reducible refine wp_div_rnd (fun _ => ?_) ?_)
macro "rrun" : tactic => `(tactic| repeat rstep)

noncomputable section

/-- factor entries of row `i` -/
def rLU (s : ℕ) (b c d e f : ℕ → Rnd R) (i : ℕ) : LU4 (Rnd R) :=
  if h : s = 0 ∨ i < s then
    ⟨0, d i, e i / d i, f i / d i⟩
  else if i < 2 * s then
    let p := rLU s b c d e f (i - s)
    let ga := c (i - s)
    let mu := d i - p.al * ga
    ⟨ga, mu, (e i - p.be * ga) / mu, f i / mu⟩
  else
    let p := rLU s b c d e f (i - s)
    let q := rLU s b c d e f (i - 2 * s)
    let ga := c (i - s) - q.al * b (i - 2 * s)
    let mu := d i - q.be * b (i - 2 * s) - p.al * ga
    ⟨ga, mu, (e i - p.be * ga) / mu, f i / mu⟩
termination_by i
decreasing_by all_goals omega

/-- forward-substituted right-hand side -/
def rZe (s : ℕ) (b c d e f : ℕ → Rnd R) (r : ℕ → Rnd R) (i : ℕ) : Rnd R :=
  if h : s = 0 ∨ i < s then r i / d i
  else if i < 2 * s then
    (r i - (rLU s b c d e f i).ga • rZe s b c d e f r (i - s)) / (rLU s b c d e f i).mu
  else
    (r i - b (i - 2 * s) • rZe s b c d e f r (i - 2 * s)
      - (rLU s b c d e f i).ga • rZe s b c d e f r (i - s)) / (rLU s b c d e f i).mu
termination_by i
decreasing_by all_goals omega

section
variable {s : ℕ} {b c d e f : ℕ → Rnd R} {r : ℕ → Rnd R}

theorem rLU_lo {i : ℕ} (h : i < s) :
    rLU s b c d e f i = ⟨0, d i, e i / d i, f i / d i⟩ := by
  rw [rLU, dif_pos (Or.inr h)]

theorem rLU_mid {i : ℕ} (hs : 0 < s) (h : i < s) :
    rLU s b c d e f (i + s) =
    ⟨c i, d (i + s) - (rLU s b c d e f i).al * c i,
      (e (i + s) - (rLU s b c d e f i).be * c i) / (d (i + s) - (rLU s b c d e f i).al * c i),
      f (i + s) / (d (i + s) - (rLU s b c d e f i).al * c i)⟩ := by
  rw [rLU, dif_neg (by omega), if_pos (by omega)]
  simp only [Nat.add_sub_cancel]

theorem rLU_hi {i : ℕ} (hs : 0 < s) :
    rLU s b c d e f (i + 2 * s) =
      let p := rLU s b c d e f (i + s)
      let q := rLU s b c d e f i
      let ga := c (i + s) - q.al * b i
      let mu := d (i + 2 * s) - q.be * b i - p.al * ga
      ⟨ga, mu, (e (i + 2 * s) - p.be * ga) / mu, f (i + 2 * s) / mu⟩ := by
  rw [rLU, dif_neg (by omega), if_neg (by omega)]
  simp only [Nat.add_sub_cancel, show i + 2 * s - s = i + s by omega]

theorem rZe_lo {i : ℕ} (h : i < s) : rZe s b c d e f r i = r i / d i := by
  rw [rZe, dif_pos (Or.inr h)]

theorem rZe_mid {i : ℕ} (hs : 0 < s) (h : i < s) :
    rZe s b c d e f r (i + s) = (r (i + s) - (rLU s b c d e f (i + s)).ga • rZe s b c d e f r i) / (rLU s b c d e f (i + s)).mu := by
  rw [rZe, dif_neg (by omega), if_pos (by omega)]
  simp only [Nat.add_sub_cancel]

theorem rZe_hi {i : ℕ} (hs : 0 < s) :
    rZe s b c d e f r (i + 2 * s) = (r (i + 2 * s) - b i • rZe s b c d e f r i
        - (rLU s b c d e f (i + 2 * s)).ga • rZe s b c d e f r (i + s)) / (rLU s b c d e f (i + 2 * s)).mu := by
  rw [rZe, dif_neg (by omega), if_neg (by omega)]
  simp only [Nat.add_sub_cancel, show i + 2 * s - s = i + s by omega]

end

/-- the last sweep: a missing term is not subtracted -/
def rBack (s n : ℕ) (L : ℕ → LU4 (Rnd R)) (Z x : ℕ → Rnd R) (i : ℕ) : Rnd R :=
  if i + 2 * s < n then Z i - (L i).al • x (i + s) - (L i).be • x (i + 2 * s)
  else if i + s < n then Z i - (L i).al • x (i + s)
  else Z i

end

/-- invariant of the elimination with stride `s`: rows below `k` are done -/
structure RInv (s n : ℕ) (b c d e f : ℕ → Rnd R) (r : ℕ → Rnd R) (k : ℕ) (w : PentaWork (Rnd R) (Rnd R)) : Prop where
  lal : w.al.length = n - s
  lbe : w.be.length = n - 2 * s
  lze : w.ze.length = n
  lga : w.ga.length = n
  lmu : w.mu.length = n
  al : ∀ i, i < k → i < n - s → nth w.al i = (rLU s b c d e f i).al
  be : ∀ i, i < k → i < n - 2 * s → nth w.be i = (rLU s b c d e f i).be
  ze : ∀ i, i < k → i < n → nth w.ze i = rZe s b c d e f r i
  nz : ∀ i, i < k → (rLU s b c d e f i).mu.val ≠ 0

section
variable {Q : Err → Prop} {l2 l1 d0 u1 u2 : List (Rnd R)} {rhs : List (Rnd R)} {n : ℕ}

theorem wp_pdmaInit_rnd (hn : 4 ≤ n) (hr : rhs.length = n)
    (h1 : l1.length = n - 1) (hd : d0.length = n)
    (he : u1.length = n - 1) (hf : u2.length = n - 2)
    (hQ : ∀ i < n, (rLU 1 (nth l2) (nth l1) (nth d0) (nth u1) (nth u2) i).mu.val = 0 → Q .div0)
    (w : PentaWork (Rnd R) (Rnd R))
    (lal : w.al.length = n - 1) (lbe : w.be.length = n - 2) (lze : w.ze.length = n)
    (lga : w.ga.length = n) (lmu : w.mu.length = n) :
    wp Q (pdmaInit l1 d0 u1 u2 rhs w)
      (RInv 1 n (nth l2) (nth l1) (nth d0) (nth u1) (nth u2) (nth rhs) 2) := by
  have q0 := hQ 0 (by omega)
  have q1 := hQ 1 (by omega)
  have e1 : rLU 1 (nth l2) (nth l1) (nth d0) (nth u1) (nth u2) (0 + 1) = _ :=
    rLU_mid (by omega) (by omega)
  have e0 : rLU 1 (nth l2) (nth l1) (nth d0) (nth u1) (nth u2) 0 = _ := rLU_lo (by omega)
  have z0 : rZe 1 (nth l2) (nth l1) (nth d0) (nth u1) (nth u2) (nth rhs) 0 = _ :=
    rZe_lo (by omega)
  have z1 : rZe 1 (nth l2) (nth l1) (nth d0) (nth u1) (nth u2) (nth rhs) (0 + 1) = _ :=
    rZe_mid (by omega) (by omega)
  rw [e1, e0] at z1
  rw [e0] at e1 q0
  simp only [Nat.zero_add] at e1 z1
  rw [e1] at q1
  simp only at q0 q1
  unfold pdmaInit
  rrun
  all_goals simp only [nth_set, List.length_set, *, true_and, and_true] at *
  all_goals simp (disch := omega) only [if_pos, if_neg, one_ne_zero, zero_ne_one, false_and,
    if_false, Nat.zero_lt_one, and_true, true_and, and_false] at *
  all_goals try simp only [Rnd.smul_eq] at *
  all_goals try assumption
  constructor
  all_goals try simp only [List.length_set, lal, lbe, lze, lga, lmu, Nat.mul_one]
  rotate_right
  · intro i hi
    interval_cases i
    · rw [e0]; assumption
    · rw [e1]; assumption
  all_goals intro i hi hi'
  all_goals interval_cases i
  all_goals simp only [nth_set, List.length_set, lal, lbe, lze, e0, e1, z0, z1, Rnd.smul_eq]
  all_goals simp (disch := omega) only [if_pos, if_neg, one_ne_zero, zero_ne_one, false_and,
    if_false, Nat.zero_lt_one, and_true, true_and, and_false]

theorem wp_pdmaRow_rnd (hr : rhs.length = n)
    (h2 : l2.length = n - 2) (h1 : l1.length = n - 1) (hd : d0.length = n)
    (he : u1.length = n - 1) (hf : u2.length = n - 2)
    (hQ : ∀ i < n, (rLU 1 (nth l2) (nth l1) (nth d0) (nth u1) (nth u2) i).mu.val = 0 → Q .div0)
    (w : PentaWork (Rnd R) (Rnd R)) (k : ℕ) (hk : 2 ≤ k) (hkn : k < n - 2)
    (hw : RInv 1 n (nth l2) (nth l1) (nth d0) (nth u1) (nth u2) (nth rhs) k w) :
    wp Q (pdmaRow l2 l1 d0 u1 u2 rhs k w)
      (RInv 1 n (nth l2) (nth l1) (nth d0) (nth u1) (nth u2) (nth rhs) (k + 1)) := by
  obtain ⟨k, rfl⟩ : ∃ j, k = j + 2 := ⟨k - 2, by omega⟩
  have q := hQ (k + 2) (by omega)
  obtain ⟨lal, lbe, lze, lga, lmu, al, be, ze, nz⟩ := hw
  have ek : rLU 1 (nth l2) (nth l1) (nth d0) (nth u1) (nth u2) (k + 2 * 1) = _ :=
    rLU_hi (by omega)
  have zk : rZe 1 (nth l2) (nth l1) (nth d0) (nth u1) (nth u2) (nth rhs) (k + 2 * 1) = _ :=
    rZe_hi (by omega)
  simp only [Nat.mul_one] at ek zk lbe be
  rw [ek] at zk q
  simp only at q
  unfold pdmaRow
  rrun
  all_goals simp only [nth_set, List.length_set, *, true_and, and_true, Nat.add_sub_cancel,
    show k + 2 - 1 = k + 1 by omega] at *
  all_goals simp (disch := omega) only [al k, al (k + 1), be k, be (k + 1), if_pos, ze k,
    ze (k + 1)] at *
  all_goals try simp only [Rnd.smul_eq] at *
  all_goals try assumption
  constructor
  all_goals try simp only [List.length_set, lal, lbe, lze, lga, lmu, Nat.mul_one]
  rotate_right
  · refine nz_lt_succ nz ?_
    rw [ek]; assumption
  all_goals refine nth_set_lt_succ (by omega) ?_ ?_
  all_goals first | assumption | simp only [ek, zk]

theorem wp_pdmaRowN2_rnd (hn : 4 ≤ n) (hr : rhs.length = n)
    (h2 : l2.length = n - 2) (h1 : l1.length = n - 1) (hd : d0.length = n)
    (he : u1.length = n - 1)
    (hQ : ∀ i < n, (rLU 1 (nth l2) (nth l1) (nth d0) (nth u1) (nth u2) i).mu.val = 0 → Q .div0)
    (w : PentaWork (Rnd R) (Rnd R))
    (hw : RInv 1 n (nth l2) (nth l1) (nth d0) (nth u1) (nth u2) (nth rhs) (n - 2) w) :
    wp Q (pdmaRowN2 l2 l1 d0 u1 rhs n w)
      (RInv 1 n (nth l2) (nth l1) (nth d0) (nth u1) (nth u2) (nth rhs) (n - 1)) := by
  obtain ⟨k, rfl⟩ : ∃ j, n = j + 4 := ⟨n - 4, by omega⟩
  have q := hQ (k + 2) (by omega)
  obtain ⟨lal, lbe, lze, lga, lmu, al, be, ze, nz⟩ := hw
  have ek : rLU 1 (nth l2) (nth l1) (nth d0) (nth u1) (nth u2) (k + 2 * 1) = _ :=
    rLU_hi (by omega)
  have zk : rZe 1 (nth l2) (nth l1) (nth d0) (nth u1) (nth u2) (nth rhs) (k + 2 * 1) = _ :=
    rZe_hi (by omega)
  simp only [Nat.mul_one] at ek zk lbe be
  rw [ek] at zk q
  simp only at q
  unfold pdmaRowN2
  have s4 : k + 4 - 4 = k := by omega
  have s3 : k + 4 - 3 = k + 1 := by omega
  have s2 : k + 4 - 2 = k + 2 := by omega
  have s1 : k + 4 - 1 = k + 3 := by omega
  rrun
  all_goals simp only [nth_set, List.length_set, *, true_and, and_true] at *
  all_goals simp (disch := omega) only [al k, al (k + 1), be k, be (k + 1), if_pos, ze k,
    ze (k + 1)] at *
  all_goals try simp only [Rnd.smul_eq] at *
  all_goals try assumption
  constructor
  all_goals try simp only [List.length_set, lal, lbe, lze, lga, lmu, Nat.mul_one, s2, s1]
  · refine nth_set_lt_succ (by omega) ?_ ?_
    all_goals first | assumption | simp only [ek, zk]
  · exact nth_noset_lt_succ (by omega) be
  · refine nth_set_lt_succ (by omega) ?_ ?_
    all_goals first | assumption | simp only [ek, zk]
  · refine nz_lt_succ nz ?_
    rw [ek]; assumption

theorem wp_pdmaRowN1_rnd (hn : 4 ≤ n) (hr : rhs.length = n)
    (h2 : l2.length = n - 2) (h1 : l1.length = n - 1) (hd : d0.length = n)
    (hQ : ∀ i < n, (rLU 1 (nth l2) (nth l1) (nth d0) (nth u1) (nth u2) i).mu.val = 0 → Q .div0)
    (w : PentaWork (Rnd R) (Rnd R))
    (hw : RInv 1 n (nth l2) (nth l1) (nth d0) (nth u1) (nth u2) (nth rhs) (n - 1) w) :
    wp Q (pdmaRowN1 l2 l1 d0 rhs n w)
      (RInv 1 n (nth l2) (nth l1) (nth d0) (nth u1) (nth u2) (nth rhs) n) := by
  obtain ⟨k, rfl⟩ : ∃ j, n = j + 3 := ⟨n - 3, by omega⟩
  have q := hQ (k + 2) (by omega)
  obtain ⟨lal, lbe, lze, lga, lmu, al, be, ze, nz⟩ := hw
  have ek : rLU 1 (nth l2) (nth l1) (nth d0) (nth u1) (nth u2) (k + 2 * 1) = _ :=
    rLU_hi (by omega)
  have zk : rZe 1 (nth l2) (nth l1) (nth d0) (nth u1) (nth u2) (nth rhs) (k + 2 * 1) = _ :=
    rZe_hi (by omega)
  simp only [Nat.mul_one] at ek zk lbe be
  rw [ek] at zk q
  simp only at q
  unfold pdmaRowN1
  have s3 : k + 3 - 3 = k := by omega
  have s2 : k + 3 - 2 = k + 1 := by omega
  have s1 : k + 3 - 1 = k + 2 := by omega
  rrun
  all_goals simp only [nth_set, List.length_set, *, true_and, and_true] at *
  all_goals simp (disch := omega) only [al k, al (k + 1), be k, be (k + 1), if_pos, ze k,
    ze (k + 1)] at *
  all_goals try simp only [Rnd.smul_eq] at *
  all_goals try assumption
  constructor
  all_goals try simp only [List.length_set, lal, lbe, lze, lga, lmu, Nat.mul_one, s2, s1]
  · exact nth_noset_lt_succ (by omega) al
  · exact nth_noset_lt_succ (by omega) be
  · refine nth_set_lt_succ (by omega) ?_ ?_
    all_goals first | assumption | simp only [ek, zk]
  · refine nz_lt_succ nz ?_
    rw [ek]; assumption

/-- Full run of `pdma`: the result obeys the back-substitution recurrence. -/
theorem wp_pdma_rnd (hn : 4 ≤ n) (hr : rhs.length = n)
    (h2 : l2.length = n - 2) (h1 : l1.length = n - 1) (hd : d0.length = n)
    (he : u1.length = n - 1) (hf : u2.length = n - 2)
    (hQ : ∀ i < n, (rLU 1 (nth l2) (nth l1) (nth d0) (nth u1) (nth u2) i).mu.val = 0 → Q .div0) :
    wp Q (pdma l2 l1 d0 u1 u2 rhs) (fun x =>
      (∀ i < n, (rLU 1 (nth l2) (nth l1) (nth d0) (nth u1) (nth u2) i).mu.val ≠ 0) ∧ x.length = n ∧
      ∀ i < n, nth x i = rBack 1 n (rLU 1 (nth l2) (nth l1) (nth d0) (nth u1) (nth u2))
        (rZe 1 (nth l2) (nth l1) (nth d0) (nth u1) (nth u2) (nth rhs)) (nth x) i) := by
  unfold pdma
  rw [hr]
  rrun
  refine wp_cut _ (wp_pdmaInit_rnd (l2 := l2) hn hr h1 hd he hf hQ _ (by simp) (by simp) (by simp)
    (by simp) (by simp)) ?_
  intro w hw
  rrun
  refine wp_forRange (RInv 1 n (nth l2) (nth l1) (nth d0) (nth u1) (nth u2) (nth rhs)) hw ?_ ?_
  · intro i w hi hi' hw
    exact wp_pdmaRow_rnd hr h2 h1 hd he hf hQ w i hi hi' hw
  intro w hw
  rw [show max 2 (n - 2) = n - 2 by omega] at hw
  rrun
  refine wp_cut _ (wp_pdmaRowN2_rnd hn hr h2 h1 hd he hQ w hw) ?_
  intro w hw
  rrun
  refine wp_cut _ (wp_pdmaRowN1_rnd hn hr h2 h1 hd hQ w hw) ?_
  rintro w ⟨lal, lbe, lze, lga, lmu, al, be, ze, nz⟩
  rw [Nat.mul_one] at lbe be
  rrun
  set L := rLU 1 (nth l2) (nth l1) (nth d0) (nth u1) (nth u2)
  set Z := rZe 1 (nth l2) (nth l1) (nth d0) (nth u1) (nth u2) (nth rhs)
  refine wp_forRev (fun k x => x.length = n ∧
      ∀ i, k ≤ i → i < n → nth x i = rBack 1 n L Z (nth x) i)
        ⟨by simpa using hr, ?_⟩ ?_ ?_
  · intro i hi hi'
    simp only [rBack, nth_set, List.length_set, hr]
    obtain rfl | rfl : i = n - 1 ∨ i = n - 2 := by omega
    all_goals simp (disch := omega) only [true_and, if_pos, if_neg, ze, al, show n - 2 + 1 = n - 1 by omega]
  · rintro i x hi hi' ⟨hx, hx2⟩
    rrun
    refine ⟨by simpa using hx, ?_⟩
    intro j hj hj'
    rw [rBack, nth_set_ne _ i (j + 1) _ (by omega), nth_set_ne _ i (j + 2 * 1) _ (by omega)]
    by_cases h : i = j
    · subst h
      rw [nth_set_self _ _ _ (by omega), ze i (by omega) (by omega), al i (by omega) (by omega),
        be i (by omega) (by omega), if_pos (by omega)]
    · rw [nth_set_ne _ _ _ _ h]; exact hx2 j (by omega) hj'
  · rintro x ⟨hx, hx2⟩
    exact ⟨nz, hx, fun i hi => hx2 i (by omega) hi⟩

end

end Verif
