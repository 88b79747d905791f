/- Pivots of the normal matrices `Sᵀ S` are positive. -/
import Verif.Proof.Tdma
import Verif.Proof.Penta
import Mathlib.Algebra.Order.Field.Basic
import Mathlib.Tactic.Positivity
import Mathlib.Tactic.Linarith
import Mathlib.Tactic.FieldSimp

namespace Verif
variable {K : Type} [Field K] [LinearOrder K] [IsStrictOrderedRing K]

theorem tri_pos (m : ℕ) (D O d l : ℕ → K)
    (hD : ∀ i < m, D i = d i * d i + l i * l i)
    (hO : ∀ i, i + 2 < m → O i = d (i + 2) * l i)
    (hd : ∀ i < m, d i ≠ 0) :
    ∀ i < m, l i * l i < triPiv O D O i := by
  intro i
  induction i using Nat.strong_induction_on with
  | _ i ih =>
    intro hi
    have hpos : 0 < d i * d i := mul_self_pos.mpr (hd i hi)
    match i, ih, hi, hpos with
    | 0, _, hi, hpos => simp only [triPiv]; rw [hD 0 hi]; linarith
    | 1, _, hi, hpos => simp only [triPiv]; rw [hD 1 hi]; linarith
    | i + 2, ih, hi, hpos =>
      have h1 := ih i (by omega) (by omega)
      have hp : 0 < triPiv O D O i := lt_of_le_of_lt (mul_self_nonneg _) h1
      simp only [triPiv]
      rw [hD _ hi, hO i hi]
      have : d (i + 2) * l i * ((triPiv O D O i)⁻¹ * (d (i + 2) * l i))
          = d (i + 2) * d (i + 2) * (l i * l i / triPiv O D O i) := by
        field_simp
      rw [this]
      have h2 : l i * l i / triPiv O D O i < 1 := (div_lt_one hp).mpr h1
      nlinarith

section penta
variable {s : ℕ} {f e D : ℕ → K}

/-- contribution of row `i-s` to the pivot of row `i+s` -/
def pX (s : ℕ) (f e D : ℕ → K) (i : ℕ) : K :=
  if i < s then 0 else (pLU s f e D e f (i - s)).be * f (i - s)

theorem pLU_hi' {b c d e f : ℕ → K} {i : ℕ} (hs : 0 < s) :
    pLU s b c d e f (i + s + s) =
      let p := pLU s b c d e f (i + s)
      let q := pLU s b c d e f i
      let ga := c (i + s) - q.al * b i
      let mu := d (i + s + s) - q.be * b i - p.al * ga
      ⟨ga, mu, mu⁻¹ * (e (i + s + s) - p.be * ga), mu⁻¹ * f (i + s + s)⟩ := by
  rw [show i + s + s = i + 2 * s by omega]; exact pLU_hi hs

theorem pga (hs : 0 < s) (i : ℕ) (hmu : ∀ j ≤ i, (pLU s f e D e f j).mu ≠ 0) :
    (pLU s f e D e f (i + s)).ga = (pLU s f e D e f i).mu * (pLU s f e D e f i).al := by
  induction i using Nat.strong_induction_on with
  | _ i ih =>
    have h0 := hmu i le_rfl
    rcases lt_or_ge i s with h | h
    · rw [pLU_mid hs h]
      rw [pLU_lo h] at h0 ⊢
      simp only at h0 ⊢
      rw [mul_inv_cancel_left₀ h0]
    · obtain ⟨j, rfl⟩ : ∃ j, i = j + s := ⟨i - s, by omega⟩
      rw [show j + s + s = j + 2 * s by omega, pLU_hi hs]
      have hj := hmu j (by omega)
      have ih' := ih j (by omega) (fun k hk => hmu k (by omega))
      have hal : (pLU s f e D e f (j + s)).mu * (pLU s f e D e f (j + s)).al
          = e (j + s) - (pLU s f e D e f j).be * (pLU s f e D e f (j + s)).ga := by
        rcases lt_or_ge j s with h' | h'
        · rw [pLU_mid hs h'] at h0 ⊢
          simp only at h0 ⊢
          rw [mul_inv_cancel_left₀ h0]
        · obtain ⟨k, rfl⟩ : ∃ k, j = k + s := ⟨j - s, by omega⟩
          rw [pLU_hi' hs] at h0 ⊢
          simp only at h0 ⊢
          rw [mul_inv_cancel_left₀ h0]
      rw [hal, ih', pLU_be]
      simp only
      field_simp

theorem pmu_step (hs : 0 < s) (i : ℕ) (hmu : ∀ j ≤ i, (pLU s f e D e f j).mu ≠ 0) :
    (pLU s f e D e f (i + s)).mu = D (i + s) - pX s f e D i
      - (pLU s f e D e f i).al * ((pLU s f e D e f i).mu * (pLU s f e D e f i).al) := by
  rw [← pga hs i hmu]
  rcases lt_or_ge i s with h | h
  · rw [pLU_mid hs h, pX, if_pos h]; simp
  · obtain ⟨j, rfl⟩ : ∃ j, i = j + s := ⟨i - s, by omega⟩
    rw [pX, if_neg (by omega), Nat.add_sub_cancel,
      show j + s + s = j + 2 * s by omega, pLU_hi hs]

theorem pal_step (hs : 0 < s) (i : ℕ) (hmu : ∀ j ≤ i + s, (pLU s f e D e f j).mu ≠ 0) :
    (pLU s f e D e f (i + s)).mu * (pLU s f e D e f (i + s)).al
      = e (i + s) - f i * (pLU s f e D e f i).al := by
  have hi := hmu i (by omega)
  have h0 := hmu (i + s) le_rfl
  have e1 : f i * (pLU s f e D e f i).al = (pLU s f e D e f i).be * (pLU s f e D e f (i + s)).ga := by
    rw [pga hs i (fun j hj => hmu j (by omega)), pLU_be]; field_simp
  rw [e1]
  rcases lt_or_ge i s with h | h
  · rw [pLU_mid hs h] at h0 ⊢
    simp only at h0 ⊢
    rw [mul_inv_cancel_left₀ h0]
  · obtain ⟨j, rfl⟩ : ∃ j, i = j + s := ⟨i - s, by omega⟩
    rw [pLU_hi' hs] at h0 ⊢
    simp only at h0 ⊢
    rw [mul_inv_cancel_left₀ h0]

/-- the algebraic heart: eliminating one variable from a positive definite 2×2 form plus the
square of one more row keeps it positive definite -/
theorem pd_step (a b c h l d mu : K) (ha : 0 < a) (hdet : 0 < a * c - b ^ 2) (hd : d ≠ 0)
    (hmu : mu = a + h ^ 2) :
    0 < c + l ^ 2 - (b + h * l) ^ 2 / mu ∧
    0 < (c + l ^ 2 - (b + h * l) ^ 2 / mu) * (d ^ 2 - h ^ 2 * d ^ 2 / mu)
      - (l * d - (b + h * l) * (h * d) / mu) ^ 2 := by
  have hmp : 0 < mu := by rw [hmu]; positivity
  have key : 0 < (c + l ^ 2) * mu - (b + h * l) ^ 2 := by
    have e : a * ((c + l ^ 2) * mu - (b + h * l) ^ 2)
        = (a * c - b ^ 2) * (a + h ^ 2) + (a * l - b * h) ^ 2 := by rw [hmu]; ring
    have : 0 < a * ((c + l ^ 2) * mu - (b + h * l) ^ 2) := by rw [e]; positivity
    exact (pos_iff_pos_of_mul_pos this).mp ha
  constructor
  · have : c + l ^ 2 - (b + h * l) ^ 2 / mu = ((c + l ^ 2) * mu - (b + h * l) ^ 2) / mu := by
      field_simp
    rw [this]; positivity
  · have : (c + l ^ 2 - (b + h * l) ^ 2 / mu) * (d ^ 2 - h ^ 2 * d ^ 2 / mu)
      - (l * d - (b + h * l) * (h * d) / mu) ^ 2 = d ^ 2 * (a * c - b ^ 2) / mu := by
      have hne := hmp.ne'
      field_simp
      rw [hmu]; ring
    rw [this]; positivity

theorem penta_pos (hs : 0 < s) (m : ℕ) (d l h : ℕ → K)
    (hD : ∀ i < m, D i = d i * d i + l i * l i + h i * h i)
    (he : ∀ i, i + s < m → e i = d (i + s) * l i + l (i + s) * h i)
    (hf : ∀ i, i + 2 * s < m → f i = d (i + 2 * s) * h i)
    (hd : ∀ i < m, d i ≠ 0) :
    ∀ i < m, 0 < (pLU s f e D e f i).mu := by
  suffices H : ∀ i < m, 0 < (pLU s f e D e f i).mu - h i ^ 2 ∧
      (i + s < m → 0 < ((pLU s f e D e f i).mu - h i ^ 2) * (d (i + s) ^ 2 - pX s f e D i)
        - ((pLU s f e D e f i).mu * (pLU s f e D e f i).al - h i * l (i + s)) ^ 2) by
    intro i hi
    have := (H i hi).1
    nlinarith [sq_nonneg (h i)]
  intro i
  induction i using Nat.strong_induction_on with
  | _ i ih =>
    intro hi
    have hdi := hd i hi
    rcases lt_or_ge i s with his | his
    · rw [pLU_lo his, pX, if_pos his]
      simp only
      rw [hD i hi]
      have hne : d i * d i + l i * l i + h i * h i ≠ 0 := by
        have : 0 < d i * d i := mul_self_pos.mpr hdi
        nlinarith [mul_self_nonneg (l i), mul_self_nonneg (h i)]
      refine ⟨?_, fun h2 => ?_⟩
      · have : 0 < d i * d i := mul_self_pos.mpr hdi
        nlinarith [mul_self_nonneg (l i)]
      · rw [mul_inv_cancel_left₀ hne, he i h2]
        have hd2 := hd _ h2
        have : (d i * d i + l i * l i + h i * h i - h i ^ 2) * (d (i + s) ^ 2 - 0)
            - (d (i + s) * l i + l (i + s) * h i - h i * l (i + s)) ^ 2
            = (d i * d (i + s)) ^ 2 := by ring
        rw [this]; positivity
    · obtain ⟨j, rfl⟩ : ∃ j, i = j + s := ⟨i - s, by omega⟩
      obtain ⟨h1, h2⟩ := ih j (by omega) (by omega)
      have h2 := h2 hi
      have hmupos : ∀ k < j + s, 0 < (pLU s f e D e f k).mu := by
        intro k hk
        have := (ih k hk (by omega)).1
        nlinarith [sq_nonneg (h k)]
      have hmu : ∀ k < j + s, (pLU s f e D e f k).mu ≠ 0 := fun k hk => (hmupos k hk).ne'
      have hm := pmu_step hs j (fun k hk => hmu k (by omega))
      set M := (pLU s f e D e f j).mu with hM
      have hMne : M ≠ 0 := hmu j (by omega)
      set al := (pLU s f e D e f j).al with hal
      have st := pd_step (M - h j ^ 2) (M * al - h j * l (j + s)) (d (j + s) ^ 2 - pX s f e D j)
        (h j) (l (j + s))
      have e1 : (pLU s f e D e f (j + s)).mu - h (j + s) ^ 2 =
          d (j + s) ^ 2 - pX s f e D j + l (j + s) ^ 2
            - (M * al - h j * l (j + s) + h j * l (j + s)) ^ 2 / M := by
        rw [hm, hD _ hi]; field_simp; ring
      have hp1 := (st 1 M h1 h2 one_ne_zero (by ring)).1
      rw [← e1] at hp1
      refine ⟨hp1, fun h3 => ?_⟩
      have hp2 := (st (d (j + 2 * s)) M h1 h2 (hd _ (by omega)) (by ring)).2
      have hmu' : ∀ k ≤ j + s, (pLU s f e D e f k).mu ≠ 0 := by
        intro k hk
        rcases Nat.lt_or_ge k (j + s) with hk' | hk'
        · exact hmu k hk'
        · obtain rfl : k = j + s := by omega
          have : 0 < (pLU s f e D e f (j + s)).mu := by nlinarith [sq_nonneg (h (j + s))]
          exact this.ne'
      have ha := pal_step hs j hmu'
      have hX : pX s f e D (j + s) = M⁻¹ * f j * f j := by
        rw [pX, if_neg (by omega), Nat.add_sub_cancel, pLU_be]
      rw [ha, e1, hX, ← hal, he _ h3, show j + s + s = j + 2 * s by omega, hf j (by omega)]
      convert hp2 using 2
      · field_simp
      · field_simp; ring

end penta
end Verif
