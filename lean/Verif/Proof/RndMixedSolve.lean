/- The mixed basis in arithmetic with rounding: `from_ortho`. -/
import Verif.Proof.RndMixed
import Verif.Proof.RndPentaDom
import Verif.Proof.RndPenta4

namespace Verif
open Res Spec Finset

section stencils
variable {K T : Type} [Zero K] [One K] [Neg K] [Add K] [Sub K] [Mul K] [NatCast K] [Pow K ℕ] [DivBy K K]
  [Zero T] [Add T] [Sub T] [SMul K T] [DivBy K T]
variable {s : Stencil3 K} {m : ℕ} {d l1 l2 : ℕ → K}

/-- `solve` solves the normal equations by elimination -/
theorem Stencil3.Form.solve_eq (hs : s.Form m d l1 l2) (u v : List T) (hu : u.length = m + 2) (hv : v.length = m) :
    s.solve u v = pdma s.fdmaOff2 s.fdmaOff1 s.fdmaDiag s.fdmaOff1 s.fdmaOff2
      ((List.range m).map (fun i => d i • nth u i + l1 i • nth u (i + 1) + l2 i • nth u (i + 2))) := by
  have h0 : s.diag.length = m := by rw [hs.diag]; simp
  have h1 : s.low1.length = m := by rw [hs.low1]; simp
  have h2 : s.low2.length = m := by rw [hs.low2]; simp
  have fill : ∀ {Q : Err → Prop} {P : List T → Prop},
      wp Q (pdma s.fdmaOff2 s.fdmaOff1 s.fdmaDiag s.fdmaOff1 s.fdmaOff2
        ((List.range m).map (fun i => d i • nth u i + l1 i • nth u (i + 1) + l2 i • nth u (i + 2)))) P →
      wp Q (s.solve u v) P := fun {Q P} h => by
    unfold Stencil3.solve
    rw [hv]
    wprun
    refine wp_fill (fun i => d i • nth u i + l1 i • nth u (i + 1) + l2 i • nth u (i + 2)) hv ?_ ?_
    · intro i hi v hv; wprun
      rw [hs.diag, hs.low1, hs.low2, nth_map_range _ _ _ hi, nth_map_range _ _ _ hi, nth_map_range _ _ _ hi]
    · exact h
  cases e : pdma s.fdmaOff2 s.fdmaOff1 s.fdmaDiag s.fdmaOff1 s.fdmaOff2
      ((List.range m).map (fun i => d i • nth u i + l1 i • nth u (i + 1) + l2 i • nth u (i + 2))) with
  | ok r =>
    refine eq_of_wp (fill ?_)
    rw [e]; exact rfl
  | err r =>
    have : wp (fun x => x = r) (s.solve u v) (fun _ => False) := fill (by rw [e]; exact rfl)
    cases h : s.solve u v with
    | ok a => rw [h] at this; exact this.elim
    | err e => rw [h] at this; rw [show e = r from this]

end stencils

/-! ### the exact matrix -/

theorem mixL1_eq (k : ℕ) : mixL1 k = (4 * k + 4) / (2 * (k:ℝ) ^ 2 + 6 * k + 5) := by
  unfold mixL1; congr 1 <;> ring

theorem mixL2_eq (k : ℕ) : mixL2 k = mixL1 k - 1 := by
  have : (0:ℝ) ≤ k := Nat.cast_nonneg k
  unfold mixL1 mixL2
  rw [eq_sub_iff_add_eq, div_add_one (by positivity)]
  congr 1; ring

theorem mixL1_pos (k : ℕ) : 0 < mixL1 k := by
  rw [mixL1_eq]; positivity

theorem mixL1_lt (k : ℕ) : mixL1 k < 1 := by
  have : (0:ℝ) ≤ k := Nat.cast_nonneg k
  rw [mixL1_eq, div_lt_one (by positivity)]
  nlinarith

/-- the diagonals of the normal equations -/
noncomputable def mixD (k : ℕ) : ℝ := 1 + mixL1 k * mixL1 k + mixL2 k * mixL2 k
noncomputable def mixO1 (k : ℕ) : ℝ := mixL1 k + mixL1 (k + 1) * mixL2 k
noncomputable def mixO2 (k : ℕ) : ℝ := mixL2 k

theorem mixD_le (k : ℕ) : 1 ≤ mixD k ∧ mixD k ≤ 2 := by
  have h1 := mixL1_pos k
  have h2 := mixL1_lt k
  unfold mixD
  rw [mixL2_eq]
  constructor <;> nlinarith

theorem mixO1_nonneg (k : ℕ) : 0 ≤ mixO1 k := by
  have h : (0:ℝ) ≤ k := Nat.cast_nonneg k
  unfold mixO1
  rw [mixL2_eq, mixL1_eq, mixL1_eq]
  push_cast
  have e : (4 * (k:ℝ) + 4) / (2 * (k:ℝ) ^ 2 + 6 * k + 5)
      + (4 * ((k:ℝ) + 1) + 4) / (2 * ((k:ℝ) + 1) ^ 2 + 6 * ((k:ℝ) + 1) + 5) * ((4 * (k:ℝ) + 4) / (2 * (k:ℝ) ^ 2 + 6 * k + 5) - 1)
      = (24 * (k:ℝ) ^ 2 + 72 * k + 44) / ((2 * (k:ℝ) ^ 2 + 6 * k + 5) * (2 * (k:ℝ) ^ 2 + 10 * k + 13)) := by
    rw [show 2 * ((k:ℝ) + 1) ^ 2 + 6 * ((k:ℝ) + 1) + 5 = 2 * (k:ℝ) ^ 2 + 10 * k + 13 by ring]
    have h1 : 2 * (k:ℝ) ^ 2 + 6 * k + 5 ≠ 0 := by positivity
    have h2 : 2 * (k:ℝ) ^ 2 + 10 * k + 13 ≠ 0 := by positivity
    field_simp
    ring
  rw [e]; positivity

/-- the rows of the exact matrix are dominated by the diagonal, by a margin of order `1 / i³` -/
theorem mix_margin (i : ℕ) :
    (if 2 ≤ i then |mixO2 (i - 2)| else 0) + (if 1 ≤ i then |mixO1 (i - 1)| else 0) + |mixO1 i| + |mixO2 i|
      + 2 / ((i:ℝ) + 3) ^ 3 ≤ mixD i := by
  have o2 : ∀ k, |mixO2 k| = 1 - mixL1 k := fun k => by
    unfold mixO2; rw [mixL2_eq, abs_of_nonpos (by linarith [mixL1_lt k])]; ring
  have o1 : ∀ k, |mixO1 k| = mixL1 k + mixL1 (k + 1) * (mixL1 k - 1) := fun k => by
    rw [abs_of_nonneg (mixO1_nonneg k), mixO1, mixL2_eq]
  unfold mixD
  rw [mixL2_eq, o1, o2]
  match i with
  | 0 =>
    simp only [show ¬ (2:ℕ) ≤ 0 by omega, show ¬ (1:ℕ) ≤ 0 by omega, if_false, o1, o2, mixL1_eq]
    norm_num
  | 1 =>
    simp only [show ¬ (2:ℕ) ≤ 1 by omega, le_refl, if_true, if_false, o1, o2, mixL1_eq]
    norm_num
  | j + 2 =>
    simp only [show 2 ≤ j + 2 by omega, show 1 ≤ j + 2 by omega, if_true, o1, o2, mixL1_eq,
      show j + 2 - 2 = j by omega, show j + 2 - 1 = j + 1 by omega]
    have h : (0:ℝ) ≤ j := Nat.cast_nonneg j
    push_cast
    have d0 : 2 * (j:ℝ) ^ 2 + 6 * j + 5 ≠ 0 := by positivity
    have d1 : 2 * (j:ℝ) ^ 2 + 10 * j + 13 ≠ 0 := by positivity
    have d2 : 2 * (j:ℝ) ^ 2 + 14 * j + 25 ≠ 0 := by positivity
    have d3 : 2 * (j:ℝ) ^ 2 + 18 * j + 41 ≠ 0 := by positivity
    have d5 : (j:ℝ) + 5 ≠ 0 := by positivity
    rw [show 2 * ((j:ℝ) + 1) ^ 2 + 6 * ((j:ℝ) + 1) + 5 = 2 * (j:ℝ) ^ 2 + 10 * j + 13 by ring,
      show 2 * ((j:ℝ) + 2) ^ 2 + 6 * ((j:ℝ) + 2) + 5 = 2 * (j:ℝ) ^ 2 + 14 * j + 25 by ring,
      show 2 * ((j:ℝ) + 2 + 1) ^ 2 + 6 * ((j:ℝ) + 2 + 1) + 5 = 2 * (j:ℝ) ^ 2 + 18 * j + 41 by ring,
      show 2 * ((j:ℝ) + 1 + 1) ^ 2 + 6 * ((j:ℝ) + 1 + 1) + 5 = 2 * (j:ℝ) ^ 2 + 14 * j + 25 by ring,
      show (j:ℝ) + 2 + 3 = j + 5 by ring, ← sub_nonneg]
    have key : ∀ a0 a1 a2 a3 t : ℝ, a0 = (4 * j + 4) / (2 * (j:ℝ) ^ 2 + 6 * j + 5) →
        a1 = (4 * ((j:ℝ) + 1) + 4) / (2 * (j:ℝ) ^ 2 + 10 * j + 13) → a2 = (4 * ((j:ℝ) + 2) + 4) / (2 * (j:ℝ) ^ 2 + 14 * j + 25) →
        a3 = (4 * ((j:ℝ) + 2 + 1) + 4) / (2 * (j:ℝ) ^ 2 + 18 * j + 41) → t = 2 / ((j:ℝ) + 5) ^ 3 →
        0 ≤ 2 * a2 ^ 2 - a2 + a3 - a1 + a0 - a2 * (a3 + a1) - t := by
      intro a0 a1 a2 a3 t e0 e1 e2 e3 et
      have : 2 * a2 ^ 2 - a2 + a3 - a1 + a0 - a2 * (a3 + a1) - t = (11858750 + 62648500 * (j:ℝ) + 112002220 * (j:ℝ) ^ 2
          + 105155344 * (j:ℝ) ^ 3 + 60537168 * (j:ℝ) ^ 4 + 22866560 * (j:ℝ) ^ 5 + 5810912 * (j:ℝ) ^ 6 + 987712 * (j:ℝ) ^ 7
          + 107872 * (j:ℝ) ^ 8 + 6848 * (j:ℝ) ^ 9 + 192 * (j:ℝ) ^ 10) / ((2 * (j:ℝ) ^ 2 + 6 * j + 5) *
            (2 * (j:ℝ) ^ 2 + 10 * j + 13) * (2 * (j:ℝ) ^ 2 + 14 * j + 25) ^ 2 * (2 * (j:ℝ) ^ 2 + 18 * j + 41) * ((j:ℝ) + 5) ^ 3) := by
        rw [e0, e1, e2, e3, et]
        field_simp
        ring
      rw [this]; positivity
    have := key _ _ _ _ _ rfl rfl rfl rfl rfl
    have e4 : (4 * ((j:ℝ) + 1 + 1) + 4) / (2 * (j:ℝ) ^ 2 + 14 * j + 25) = (4 * ((j:ℝ) + 2) + 4) / (2 * (j:ℝ) ^ 2 + 14 * j + 25) := by
      congr 2; ring
    rw [e4]
    refine this.trans (le_of_eq ?_)
    ring

/-! ### the computed matrix -/

section rounding
variable {R : Rounding}

theorem NearV.mul {p q : ℕ} {c e z c' e' z' : ℝ} (h : NearV R p c e z) (h' : NearV R q c' e' z')
    (hpq : ((p + q : ℕ) : ℝ) * R.u < 1) : NearV R (p + q) (c * c') (e * e') (z * z') := by
  have u0 := R.u_nonneg
  have hp : (p:ℝ) * R.u < 1 := lt_of_le_of_lt (mul_le_mul_of_nonneg_right (by exact_mod_cast Nat.le_add_right p q) u0) hpq
  have hq : (q:ℝ) * R.u < 1 := lt_of_le_of_lt (mul_le_mul_of_nonneg_right (by exact_mod_cast Nat.le_add_left q p) u0) hpq
  have gp := R.γ_nonneg hp
  have gq := R.γ_nonneg hq
  have ga := R.γ_add hpq
  have z0 := h.nonneg
  have z0' := h'.nonneg
  refine ⟨by rw [abs_mul]; exact mul_le_mul h.le h'.le (abs_nonneg _) z0, ?_⟩
  have hc' : |c'| ≤ (1 + R.γ q) * z' := by
    have := abs_add_le (c' - e') e'
    rw [sub_add_cancel] at this
    linarith [h'.le, h'.err]
  rw [show c * c' - e * e' = (c - e) * c' + e * (c' - e') by ring]
  refine (abs_add_le _ _).trans ?_
  rw [abs_mul, abs_mul]
  have t1 := mul_le_mul h.err hc' (abs_nonneg _) (by positivity)
  have t2 := mul_le_mul h.le h'.err (abs_nonneg _) z0
  have t3 := mul_le_mul_of_nonneg_right ga (mul_nonneg z0 z0')
  linarith

/-- the exact matrix -/
noncomputable def mixA : ℕ → ℕ → ℝ := pentaMat 1 mixO2 mixO1 mixD mixO1 mixO2

/-- the entries of the computed matrix -/
theorem mixed_entries (h29 : ((29:ℕ):ℝ) * R.u < 1) {m : ℕ} {l1 l2 : ℕ → Rnd R}
    (h1 : ∀ k < m, NearV R 13 (l1 k).val (mixL1 k) 1) (h2 : ∀ k < m, NearV R 13 (l2 k).val (mixL2 k) 1) :
    (∀ i < m, NearV R 29 ((1 : Rnd R) * 1 + l1 i * l1 i + l2 i * l2 i).val (mixD i) 3) ∧
    (∀ i, i + 1 < m → NearV R 28 ((1 : Rnd R) * l1 i + l1 (i + 1) * l2 i).val (mixO1 i) 2) ∧
    ∀ i, i + 2 < m → NearV R 14 ((1 : Rnd R) * l2 i).val (mixO2 i) 1 := by
  have u0 := R.u_nonneg
  have lt : ∀ {j : ℕ}, j ≤ 29 → (j:ℝ) * R.u < 1 := fun {j} hj =>
    lt_of_le_of_lt (mul_le_mul_of_nonneg_right (by exact_mod_cast hj) u0) h29
  have sq : ∀ {a b : Rnd R} {c d : ℝ}, NearV R 13 a.val c 1 → NearV R 13 b.val d 1 → NearV R 27 (a * b).val (c * d) 1 :=
    fun {a b c d} ha hb => by
      rw [Rnd.val_mul]
      have := (ha.mul hb (lt (by omega))).fl (lt (by omega))
      rwa [one_mul] at this
  have one : ∀ {a : Rnd R} {c : ℝ}, NearV R 13 a.val c 1 → NearV R 14 ((1 : Rnd R) * a).val c 1 := fun {a c} ha => by
    rw [Rnd.val_mul, Rnd.val_one, one_mul]
    exact ha.fl (lt (by omega))
  refine ⟨fun i hi => ?_, fun i hi => ?_, fun i hi => one (h2 i (by omega))⟩
  · have e1 : NearV R 27 ((1 : Rnd R) * 1).val 1 1 := by
      rw [Rnd.val_mul, Rnd.val_one, one_mul]
      have := ((NearV.self (R := R) 1).fl (lt (by omega))).mono (q := 27) (by omega) (lt (by omega))
      rwa [abs_one] at this
    have := (((e1.add (sq (h1 i hi) (h1 i hi))).fl (lt (by omega))).add
      ((sq (h2 i hi) (h2 i hi)).mono (q := 28) (by omega) (lt (by omega)))).fl (lt (by omega))
    rwa [show (1:ℝ) + 1 + 1 = 3 by norm_num] at this
  · have := (((one (h1 i (by omega))).mono (q := 27) (by omega) (lt (by omega))).add
      (sq (h1 (i + 1) hi) (h2 i (by omega)))).fl (lt (by omega))
    rwa [show (1:ℝ) + 1 = 2 by norm_num] at this

theorem sum_penta_diff {b c d e f b' c' d' e' f' : ℕ → ℝ} {n i : ℕ} (hi : i < n) :
    ∑ j ∈ range n, |pentaMat 1 b c d e f i j - pentaMat 1 b' c' d' e' f' i j| =
      (if 2 ≤ i then |b (i - 2) - b' (i - 2)| else 0)
      + (if 1 ≤ i then |c (i - 1) - c' (i - 1)| else 0) + |d i - d' i| + (if i + 1 < n then |e i - e' i| else 0)
      + (if i + 2 < n then |f i - f' i| else 0) := by
  have h : ∀ j, pentaMat 1 b c d e f i j - pentaMat 1 b' c' d' e' f' i j
      = pentaMat 1 (fun k => b k - b' k) (fun k => c k - c' k) (fun k => d k - d' k) (fun k => e k - e' k)
        (fun k => f k - f' k) i j := fun j => by
    unfold pentaMat
    split_ifs <;> ring
  rw [sum_congr rfl fun j _ => congrArg _ (h j), sum_abs_penta one_pos hi]
  simp only [Nat.mul_one]

/-- `from_ortho` of the mixed basis solves a nearby system -/
theorem mixed_system {n : ℕ} (hn : 6 ≤ n) (h36 : ((36:ℕ):ℝ) * R.u < 1) (hμ : 27 * (n:ℝ) ^ 3 * R.γ 36 < 2) {s : Stencil3 (Rnd R)}
    {l1 l2 : ℕ → Rnd R} (hs : s.Form (n - 2) (fun _ => 1) l1 l2)
    (h1 : ∀ k < n - 2, NearV R 13 (l1 k).val (mixL1 k) 1) (h2 : ∀ k < n - 2, NearV R 13 (l2 k).val (mixL2 k) 1)
    (u v : List (Rnd R)) (hu : u.length = n) (hv : v.length = n - 2) :
    ∃ x, s.solve u v = ok x ∧ x.length = n - 2 ∧ ∃ (A' : ℕ → ℕ → ℝ) (r : ℕ → ℝ), Solves (n - 2) A' (nth (vals x)) r ∧
      (∀ i < n - 2, ∑ j ∈ range (n - 2), |A' i j - mixA i j| ≤ 27 * R.γ 36) ∧
      ∀ i < n - 2, NearV R 16 (r i) (nth (vals u) i + mixL1 i * nth (vals u) (i + 1) + mixL2 i * nth (vals u) (i + 2))
        (|nth (vals u) i| + |nth (vals u) (i + 1)| + |nth (vals u) (i + 2)|) := by
  have u0 := R.u_nonneg
  have lt : ∀ {j : ℕ}, j ≤ 36 → (j:ℝ) * R.u < 1 := fun {j} hj =>
    lt_of_le_of_lt (mul_le_mul_of_nonneg_right (by exact_mod_cast hj) u0) h36
  have g7 := R.γ_nonneg (k := 7) (lt (by omega))
  have g29 := R.γ_nonneg (k := 29) (lt (by omega))
  have ga := R.γ_add (j := 7) (k := 29) h36
  have g28 := R.γ_mono (j := 28) (k := 29) (by omega) (lt (by omega))
  have g14 := R.γ_mono (j := 14) (k := 29) (by omega) (lt (by omega))
  have g36 : 0 ≤ R.γ 36 := R.γ_nonneg h36
  change R.γ 7 + R.γ 29 + R.γ 7 * R.γ 29 ≤ R.γ 36 at ga
  have p729 := mul_nonneg g7 g29
  obtain ⟨nd, no1, no2⟩ := mixed_entries (lt (by omega)) h1 h2
  set m := n - 2 with hm
  have ed : ∀ i < m, nth s.fdmaDiag i = 1 * 1 + l1 i * l1 i + l2 i * l2 i := fun i hi => by
    rw [hs.fdiag, nth_map_range _ _ _ hi]
  have eo1 : ∀ i, i + 1 < m → nth s.fdmaOff1 i = 1 * l1 i + l1 (i + 1) * l2 i := fun i hi => by
    rw [hs.foff1, nth_map_range _ _ _ (by omega)]
  have eo2 : ∀ i, i + 2 < m → nth s.fdmaOff2 i = 1 * l2 i := fun i hi => by
    rw [hs.foff2, nth_map_range _ _ _ (by omega)]
  have ld : s.fdmaDiag.length = m := by rw [hs.fdiag]; simp
  have lo1 : s.fdmaOff1.length = m - 1 := by rw [hs.foff1]; simp
  have lo2 : s.fdmaOff2.length = m - 2 := by rw [hs.foff2]; simp
  have z1 : ∀ i, m ≤ i + 1 → (nth s.fdmaOff1 i).val = 0 := fun i hi => by rw [nth_of_le _ _ (by omega)]; rfl
  have z2 : ∀ i, m ≤ i + 2 * 1 → (nth s.fdmaOff2 i).val = 0 := fun i hi => by rw [nth_of_le _ _ (by omega)]; rfl
  have bd : ∀ i < m, |(nth s.fdmaDiag i).val - mixD i| ≤ 3 * R.γ 29 := fun i hi => by
    rw [ed i hi]; have := (nd i hi).err; linarith
  have bo1 : ∀ i, i + 1 < m → |(nth s.fdmaOff1 i).val - mixO1 i| ≤ 2 * R.γ 29 := fun i hi => by
    rw [eo1 i hi]; have := (no1 i hi).err; linarith
  have bo2 : ∀ i, i + 2 < m → |(nth s.fdmaOff2 i).val - mixO2 i| ≤ R.γ 29 := fun i hi => by
    rw [eo2 i hi]; have := (no2 i hi).err; linarith
  have szd : ∀ i < m, |(nth s.fdmaDiag i).val| ≤ 3 * (1 + R.γ 29) := fun i hi => by
    have := abs_add_le ((nth s.fdmaDiag i).val - mixD i) (mixD i)
    rw [sub_add_cancel] at this
    have := (nd i hi).le
    linarith [bd i hi]
  have so1 : ∀ i, |(nth s.fdmaOff1 i).val| ≤ |mixO1 i| + 2 * R.γ 29 := fun i => by
    by_cases hi : i + 1 < m
    · have := abs_add_le ((nth s.fdmaOff1 i).val - mixO1 i) (mixO1 i)
      rw [sub_add_cancel] at this
      linarith [bo1 i hi]
    · rw [z1 i (by omega), abs_zero]; positivity
  have so2 : ∀ i, |(nth s.fdmaOff2 i).val| ≤ |mixO2 i| + R.γ 29 := fun i => by
    by_cases hi : i + 2 < m
    · have := abs_add_le ((nth s.fdmaOff2 i).val - mixO2 i) (mixO2 i)
      rw [sub_add_cancel] at this
      linarith [bo2 i hi]
    · rw [z2 i (by omega), abs_zero]; positivity
  have hdom : ∀ i < m, (if 2 * 1 ≤ i then |(nth s.fdmaOff2 (i - 2 * 1)).val| else 0)
      + (if 1 ≤ i then |(nth s.fdmaOff1 (i - 1)).val| else 0)
      + |(nth s.fdmaOff1 i).val| + |(nth s.fdmaOff2 i).val| < (1 - R.u) ^ 7 * |(nth s.fdmaDiag i).val| := by
    intro i hi
    have mg := mix_margin i
    have hi3 : ((i:ℝ) + 3) ≤ n := by
      have : i + 3 ≤ n := by omega
      exact_mod_cast this
    have hi0 : (0:ℝ) < (i:ℝ) + 3 := by positivity
    have mu : 27 * R.γ 36 < 2 / ((i:ℝ) + 3) ^ 3 := by
      rw [lt_div_iff₀ (by positivity)]
      have : ((i:ℝ) + 3) ^ 3 ≤ (n:ℝ) ^ 3 := by gcongr
      have := mul_le_mul_of_nonneg_left this (show 0 ≤ 27 * R.γ 36 by positivity)
      linarith
    have t1 : (if 2 * 1 ≤ i then |(nth s.fdmaOff2 (i - 2 * 1)).val| else 0)
        ≤ (if 2 ≤ i then |mixO2 (i - 2)| else 0) + R.γ 29 := by
      simp only [Nat.mul_one]
      split
      · exact so2 _
      · linarith
    have t2 : (if 1 ≤ i then |(nth s.fdmaOff1 (i - 1)).val| else 0)
        ≤ (if 1 ≤ i then |mixO1 (i - 1)| else 0) + 2 * R.γ 29 := by
      split
      · exact so1 _
      · linarith
    have t3 := so1 i
    have t4 := so2 i
    have t5 : mixD i ≤ |(nth s.fdmaDiag i).val| + 3 * R.γ 29 := by
      have := abs_sub_abs_le_abs_sub (mixD i) (nth s.fdmaDiag i).val
      rw [abs_sub_comm] at this
      linarith [bd i hi, le_abs_self (mixD i)]
    have t6 : 1 - R.γ 7 ≤ (1 - R.u) ^ 7 := by
      have b := one_add_mul_le_pow (a := -R.u) (by
        have := lt (j := 1) (by omega); push_cast at this; linarith) 7
      have h7 := lt (j := 7) (by omega)
      have : 7 * R.u ≤ R.γ 7 := by
        unfold Rounding.γ
        rw [le_div_iff₀ (by push_cast at h7 ⊢; linarith)]
        push_cast
        nlinarith
      rw [← sub_eq_add_neg] at b
      push_cast at b
      linarith
    have t7 := mul_le_mul_of_nonneg_right t6 (abs_nonneg (nth s.fdmaDiag i).val)
    have t8 := mul_le_mul_of_nonneg_left (szd i hi) g7
    linarith
  have hrow := dominant_rows (by have := lt (j := 7) (by omega); push_cast at this; linarith) one_pos z1 z2 hdom
  set rhs : List (Rnd R) := (List.range m).map
    (fun i => (1 : Rnd R) • nth u i + l1 i • nth u (i + 1) + l2 i • nth u (i + 2)) with hrhs
  have lr : rhs.length = m := by simp [hrhs]
  obtain ⟨x, e, -, hx, hB⟩ := wp_total.mp (wp_pdma_rnd (Q := fun _ => False) (rhs := rhs) (l2 := s.fdmaOff2)
    (l1 := s.fdmaOff1) (d0 := s.fdmaDiag) (u1 := s.fdmaOff1)
    (u2 := s.fdmaOff2) (by omega) lr lo2 lo1 ld lo1 lo2 (fun i hi h => (hrow i hi).1 h))
  obtain ⟨A', hS, hE⟩ := dominant_backward (r := nth rhs) (x := nth x)
    (by have := lt (j := 7) (by omega); push_cast at this; linarith) one_pos z1 z2 hdom hB
  refine ⟨x, ?_, hx, A', fun i => (nth rhs i).val, ?_, fun i hi => ?_, fun i hi => ?_⟩
  · rw [hs.solve_eq u v (by omega) hv, ← hrhs]; exact e
  · rw [show nth (vals x) = fun i => (nth x i).val from funext fun i => Rnd.nth_vals x i]; exact hS
  · have q1 := hE i hi
    have q2 := sum_penta_diff (b := fun k => (nth s.fdmaOff2 k).val) (c := fun k => (nth s.fdmaOff1 k).val)
      (d := fun k => (nth s.fdmaDiag k).val) (e := fun k => (nth s.fdmaOff1 k).val)
      (f := fun k => (nth s.fdmaOff2 k).val) (b' := mixO2) (c' := mixO1) (d' := mixD) (e' := mixO1) (f' := mixO2) hi
    have q3 : ∑ j ∈ range m, |A' i j - mixA i j| ≤ ∑ j ∈ range m, |A' i j - pentaMat 1 (fun k => (nth s.fdmaOff2 k).val)
        (fun k => (nth s.fdmaOff1 k).val) (fun k => (nth s.fdmaDiag k).val) (fun k => (nth s.fdmaOff1 k).val)
        (fun k => (nth s.fdmaOff2 k).val) i j| + ∑ j ∈ range m, |pentaMat 1 (fun k => (nth s.fdmaOff2 k).val)
        (fun k => (nth s.fdmaOff1 k).val) (fun k => (nth s.fdmaDiag k).val) (fun k => (nth s.fdmaOff1 k).val)
        (fun k => (nth s.fdmaOff2 k).val) i j - mixA i j| := by
      rw [← sum_add_distrib]
      exact sum_le_sum fun j _ => abs_sub_le _ _ _
    unfold mixA at q3 ⊢
    rw [q2] at q3
    have r1 : (if 2 ≤ i then |(nth s.fdmaOff2 (i - 2)).val - mixO2 (i - 2)| else 0) ≤ R.γ 29 := by
      split
      · exact bo2 _ (by omega)
      · exact g29
    have r2 : (if 1 ≤ i then |(nth s.fdmaOff1 (i - 1)).val - mixO1 (i - 1)| else 0) ≤ 2 * R.γ 29 := by
      split
      · exact bo1 _ (by omega)
      · linarith
    have r3 : (if i + 1 < m then |(nth s.fdmaOff1 i).val - mixO1 i| else 0) ≤ 2 * R.γ 29 := by
      split
      · exact bo1 _ (by omega)
      · linarith
    have r4 : (if i + 2 < m then |(nth s.fdmaOff2 i).val - mixO2 i| else 0) ≤ R.γ 29 := by
      split
      · exact bo2 _ (by omega)
      · exact g29
    have r5 := mul_le_mul_of_nonneg_left (szd i hi) (show 0 ≤ 9 * R.γ 7 by linarith)
    have r6 := bd i hi
    linarith
  · have e0 : nth rhs i = (1 : Rnd R) • nth u i + l1 i • nth u (i + 1) + l2 i • nth u (i + 2) := by
      rw [hrhs, nth_map_range _ _ _ hi]
    have c : ∀ {l : Rnd R} {k : ℝ} (j : ℕ), NearV R 13 l.val k 1 → NearV R 14 (l • nth u j).val (k * nth (vals u) j) |nth (vals u) j| :=
      fun {l k} j h => by
        rw [Rnd.val_smul, Rnd.nth_vals]
        have := (h.const (nth u j).val).fl (lt (by omega))
        rwa [mul_comm _ l.val, mul_comm _ k, mul_one] at this
    have d : NearV R 14 ((1 : Rnd R) • nth u i).val (nth (vals u) i) |nth (vals u) i| := by
      rw [Rnd.val_smul, Rnd.val_one, one_mul, Rnd.nth_vals]
      exact ((NearV.self _).fl (lt (by omega))).mono (by omega) (lt (by omega))
    show NearV R 16 (nth rhs i).val _ _
    rw [e0]
    exact (((d.add (c (i + 1) (h1 i hi))).fl (lt (by omega))).add
      ((c (i + 2) (h2 i hi)).mono (by omega) (lt (by omega)))).fl (lt (by omega))

/-- Solutions of a system dominated with the margin `μ`. -/
theorem margin_forward {n : ℕ} {A A' : ℕ → ℕ → ℝ} {x y r r' : ℕ → ℝ} {μ E D X : ℝ} (hμ : 0 < μ) (hX : ∀ i < n, |x i| ≤ X)
    (hd : ∀ i < n, ∑ j ∈ (range n).erase i, |A i j| + μ ≤ |A i i|) (hE : ∀ i < n, ∑ j ∈ range n, |A' i j - A i j| ≤ E)
    (hx : Solves n A' x r') (hy : Solves n A y r) (hr : ∀ i < n, |r' i - r i| ≤ D) :
    ∀ i < n, |x i - y i| ≤ (E * X + D) / μ := by
  intro i0 hi0
  obtain ⟨i, hi, hmax⟩ := exists_max_image (range n) (fun i => |x i - y i|) ⟨i0, mem_range.mpr hi0⟩
  refine (hmax i0 (mem_range.mpr hi0)).trans ?_
  have hin := mem_range.mp hi
  have e : A i i * (x i - y i) = -(∑ j ∈ (range n).erase i, A i j * (x j - y j)) - ∑ j ∈ range n, (A' i j - A i j) * x j
      + (r' i - r i) := by
    have h1 := hx i hin
    have h2 := hy i hin
    simp only [matVec, smul_eq_mul] at h1 h2
    have h3 : ∑ j ∈ range n, A i j * (x j - y j) = A i i * (x i - y i) + ∑ j ∈ (range n).erase i, A i j * (x j - y j) :=
      (add_sum_erase _ _ hi).symm
    have h4 : ∑ j ∈ range n, A i j * (x j - y j) = -∑ j ∈ range n, (A' i j - A i j) * x j + (r' i - r i) := by
      rw [← h1, ← h2, ← sum_neg_distrib, ← sum_sub_distrib, ← sum_add_distrib]
      exact sum_congr rfl fun j _ => by ring
    linarith
  have n1 := abs_nonneg (x i - y i)
  have b1 : |∑ j ∈ (range n).erase i, A i j * (x j - y j)| ≤ (∑ j ∈ (range n).erase i, |A i j|) * |x i - y i| := by
    refine (abs_sum_le_sum_abs _ _).trans ?_
    rw [sum_mul]
    refine sum_le_sum fun j hj => ?_
    rw [abs_mul]
    exact mul_le_mul_of_nonneg_left (hmax j (mem_of_mem_erase hj)) (abs_nonneg _)
  have b2 : |∑ j ∈ range n, (A' i j - A i j) * x j| ≤ E * X := by
    refine (abs_sum_le_sum_abs _ _).trans ?_
    have X0 : 0 ≤ X := (abs_nonneg _).trans (hX i hin)
    calc ∑ j ∈ range n, |(A' i j - A i j) * x j| ≤ ∑ j ∈ range n, |A' i j - A i j| * X := by
          refine sum_le_sum fun j hj => ?_
          rw [abs_mul]
          exact mul_le_mul_of_nonneg_left (hX j (mem_range.mp hj)) (abs_nonneg _)
      _ = (∑ j ∈ range n, |A' i j - A i j|) * X := by rw [sum_mul]
      _ ≤ _ := mul_le_mul_of_nonneg_right (hE i hin) X0
  have b3 : |A i i| * |x i - y i| ≤ (∑ j ∈ (range n).erase i, |A i j|) * |x i - y i| + E * X + D := by
    rw [← abs_mul, e]
    refine (abs_add_le _ _).trans (add_le_add ((abs_sub _ _).trans ?_) (hr i hin))
    rw [abs_neg]
    exact add_le_add b1 b2
  rw [le_div_iff₀ hμ]
  have := mul_le_mul_of_nonneg_right (hd i hin) n1
  linarith

theorem mixA_margin {n i : ℕ} (hi : i < n - 2) :
    ∑ j ∈ (range (n - 2)).erase i, |mixA i j| + 2 / (n:ℝ) ^ 3 ≤ |mixA i i| := by
  have key := add_sum_erase (range (n - 2)) (fun j => |mixA i j|) (mem_range.mpr hi)
  have e := sum_abs_penta (b := mixO2) (c := mixO1) (d := mixD) (e := mixO1) (f := mixO2) one_pos hi
  have e2 : mixA i i = mixD i := pentaMat_diag one_pos i
  unfold mixA at key e2 ⊢
  rw [e] at key
  rw [e2] at key ⊢
  have mg := mix_margin i
  have hi3 : ((i:ℝ) + 3) ≤ n := by
    have : i + 3 ≤ n := by omega
    exact_mod_cast this
  have mu : 2 / (n:ℝ) ^ 3 ≤ 2 / ((i:ℝ) + 3) ^ 3 := by gcongr
  have t3 : (if i + 1 < n - 2 then |mixO1 i| else 0) ≤ |mixO1 i| := by split <;> simp
  have t4 : (if i + 2 * 1 < n - 2 then |mixO2 i| else 0) ≤ |mixO2 i| := by split <;> simp
  simp only [Nat.mul_one] at key t4
  have := le_abs_self (mixD i)
  linarith

end rounding
end Verif
