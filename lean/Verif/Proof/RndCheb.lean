/- Rounding errors of the Chebyshev transforms. -/
import Verif.Proof.RndGrad
import Verif.Proof.ChebTrans
import Verif.Proof.AnySizes
import Verif.Proof.Fill

namespace Verif
open Res Spec Finset

/-! ### the transforms, in any arithmetic -/

section form
variable {A : Type} [Zero A] [One A] [Neg A] [Add A] [Mul A] [Div A] [NatCast A] [DivBy A A] [HasDct A]

theorem Cheb.forward_eq {n : ℕ} (hn : 2 ≤ n) {cor : A} (hc : divR ((1 + 1) * (1 : A)) ((n - 1 : ℕ) : A) = ok cor)
    (x out : List A) (hx : x.length = n) (ho : out.length = n)
    (hd : (HasDct.dct (x.reverse.map (fun y => y * cor))).length = n) :
    Cheb.forwardSlice ⟨n, n⟩ x out = ok ((List.range n).map fun k =>
      if k = 0 ∨ k = n - 1 then nth (HasDct.dct (x.reverse.map (fun y => y * cor))) k * (1 / 2)
      else nth (HasDct.dct (x.reverse.map (fun y => y * cor))) k) := by
  refine eq_of_wp ?_
  unfold Cheb.forwardSlice
  refine wp_bind_i (wp_assert_i hx ?_)
  refine wp_bind_i (wp_assert_i (by omega) ?_)
  refine wp_bind_i (wp_usub_i (show 1 ≤ n by omega) ?_)
  show wp _ (divR ((1 + 1) * (1 : A)) ((n - 1 : ℕ) : A) >>= _) _
  rw [hc, bind_ok]
  dsimp only
  rw [zipSet_eq_map _ _ _ (by simp; omega)]
  set w := HasDct.dct (x.reverse.map (fun y => y * cor)) with hw
  clear_value w
  wprun
  refine ext_nth (by simpa using hd) fun i hi => ?_
  simp only [List.length_set] at hi
  rw [nth_map_range _ _ _ (by omega)]
  by_cases h1 : i = n - 1
  · subst h1
    rw [nth_set_self _ _ _ (by simpa using hi), nth_set_ne _ _ _ _ (by omega), if_pos (.inr rfl)]
  · rw [nth_set_ne _ _ _ _ (by omega)]
    by_cases h0 : i = 0
    · subst h0
      rw [nth_set_self _ _ _ hi, if_pos (.inl rfl)]
    · rw [nth_set_ne _ _ _ _ (by omega), if_neg (by omega)]

theorem Cheb.backward_eq {n : ℕ} (hn : 2 ≤ n) (x out : List A) (hx : x.length = n) (ho : out.length = n) :
    Cheb.backwardSlice ⟨n, n⟩ x out = ok (HasDct.dct ((List.range n).map fun i =>
      if i = 0 ∨ i = n - 1 then (if i % 2 = 0 then nth x i else nth x i * -1) * 2
      else if i % 2 = 0 then nth x i else nth x i * -1)) := by
  refine eq_of_wp ?_
  unfold Cheb.backwardSlice
  refine wp_bind_i (wp_assert_i hx ?_)
  refine wp_bind_i (wp_assert_i (by omega) ?_)
  rw [hx, ho, min_self]
  refine wp_bind_i ?_
  refine wp_fill (fun i => if i % 2 = 0 then nth x i else nth x i * -1) ho ?_ ?_
  · intro i hi v hv
    refine wp_ite_i (fun h => ?_) (fun h => ?_)
    · wprun; rw [if_pos h]
    · wprun; rw [if_neg h]
  have hW : ∀ i < n, nth ((List.range n).map fun i => if i % 2 = 0 then nth x i else nth x i * -1) i
      = if i % 2 = 0 then nth x i else nth x i * -1 := fun i hi => nth_map_range _ _ _ hi
  have hWl : ((List.range n).map fun i => if i % 2 = 0 then nth x i else nth x i * -1).length = n := by simp
  generalize (List.range n).map (fun i => if i % 2 = 0 then nth x i else nth x i * -1) = W at hW hWl ⊢
  wprun
  dsimp only
  congr 1
  refine ext_nth (by simpa using hWl) fun i hi => ?_
  simp only [List.length_set] at hi
  have e : ∀ {f : ℕ → A}, nth ((List.range n).map f) i = f i := nth_map_range _ _ _ (by omega)
  rw [e]
  by_cases h1 : i = n - 1
  · subst h1
    rw [nth_set_self _ _ _ (by simpa using hi), if_pos (Or.inr rfl), nth_set_ne _ _ _ _ (by omega), hW _ (by omega)]
  · rw [nth_set_ne _ _ _ _ (by omega)]
    by_cases h0 : i = 0
    · rw [if_pos (Or.inl h0), h0, nth_set_self _ _ _ (by omega), hW _ (by omega)]
    · rw [nth_set_ne _ _ _ _ (by omega), if_neg (show ¬ (i = 0 ∨ i = n - 1) by omega), hW _ (by omega)]

end form

/-! ### errors -/

theorem absSum_eq (x : List ℝ) : absSum x = ∑ i ∈ range x.length, |nth x i| := by
  unfold absSum
  rw [Finset.sum_range, ← List.sum_ofFn]
  congr 1
  refine List.ext_getElem (by simp) fun i h1 h2 => ?_
  simp only [List.length_map] at h1
  simp [nth_eq_getElem _ _ h1]

theorem absSum_nonneg (x : List ℝ) : 0 ≤ absSum x := by
  rw [absSum_eq]; exact Finset.sum_nonneg fun _ _ => abs_nonneg _

theorem absSum_reverse (x : List ℝ) : absSum x.reverse = absSum x := by
  unfold absSum; rw [List.map_reverse, List.sum_reverse]

theorem absSum_le {x : List ℝ} {X : ℝ} (h : Bounded X x) : absSum x ≤ x.length * X := by
  rw [absSum_eq]
  calc _ ≤ ∑ _i ∈ range x.length, X := Finset.sum_le_sum fun i hi => bounded_iff.mp h i (Finset.mem_range.mp hi)
    _ = _ := by simp

theorem dct1_sub {n k : ℕ} (hn : 2 ≤ n) {x y : List ℝ} (hx : x.length = n) (hy : y.length = n) (hk : k < n) :
    |nth (dct1 x) k - nth (dct1 y) k| ≤ ∑ i ∈ range n, |nth x i - nth y i| := by
  rw [nth_dct1 x (n - 1) (by omega) (by omega) k (by omega), nth_dct1 y (n - 1) (by omega) (by omega) k (by omega),
    show n - 1 + 1 = n by omega, ← Finset.sum_sub_distrib]
  refine (Finset.abs_sum_le_sum_abs _ _).trans (Finset.sum_le_sum fun i _ => ?_)
  rw [← mul_sub, ← sub_mul, abs_mul, abs_mul]
  have c1 := Real.abs_cos_le_one (Real.pi * i * k / (n - 1 : ℕ))
  have c2 : |cw (n - 1) i| ≤ 1 := by unfold cw; split <;> norm_num [abs_of_pos]
  calc _ ≤ 1 * (|nth x i - nth y i| * 1) :=
        mul_le_mul c2 (mul_le_mul_of_nonneg_left c1 (abs_nonneg _)) (by positivity) zero_le_one
    _ = _ := by ring

theorem dct1_le {n k : ℕ} (hn : 2 ≤ n) {x : List ℝ} (hx : x.length = n) (hk : k < n) :
    |nth (dct1 x) k| ≤ absSum x := by
  have h := dct1_sub hn hx (y := List.replicate n 0) (by simp) hk
  have e : ∀ i, nth (List.replicate n (0:ℝ)) i = 0 := fun i => by
    by_cases hi : i < n
    · rw [nth_eq_getElem _ _ (by simpa using hi)]; simp
    · exact nth_of_le _ _ (by simpa using hi)
  have e0 : nth (dct1 (List.replicate n (0:ℝ))) k = 0 := by
    rw [nth_dct1 _ (n - 1) (by omega) (by simp; omega) k (by omega)]
    exact Finset.sum_eq_zero fun i _ => by rw [e]; ring
  rw [e0, sub_zero] at h
  rw [absSum_eq, hx]
  simpa [e] using h

variable {R : Rounding} [HasDct (Rnd R)]

/-- A transform of rounded data. -/
theorem dct_err {n p : ℕ} {η : ℝ} (hn : 2 ≤ n) (hD : DctError R n η) (h0 : 0 ≤ η) (hp : p * R.u < 1) {x : List (Rnd R)}
    {y : List ℝ} (hx : x.length = n) (hy : y.length = n)
    (hf : ∀ i < n, ∃ θ, Fac R.u p θ ∧ nth (vals x) i = nth y i * θ) :
    (HasDct.dct x).length = n ∧ ∀ k < n, |nth (vals (HasDct.dct x)) k - nth (dct1 y) k|
      ≤ ((1 + η) * (1 + R.γ p) - 1) * absSum y := by
  obtain ⟨hl, he⟩ := hD x hx
  have hl' : (HasDct.dct x).length = n := by
    rw [vals_length, dct1_length, vals_length, hx] at hl; exact hl
  refine ⟨hl', fun k hk => ?_⟩
  have hg := R.γ_nonneg hp
  have s1 : ∑ i ∈ range n, |nth (vals x) i - nth y i| ≤ R.γ p * absSum y := by
    rw [absSum_eq, hy, Finset.mul_sum]
    refine Finset.sum_le_sum fun i hi => ?_
    obtain ⟨θ, f, e⟩ := hf i (Finset.mem_range.mp hi)
    rw [e, show nth y i * θ - nth y i = (θ - 1) * nth y i by ring, abs_mul]
    exact mul_le_mul_of_nonneg_right (R.fac_dist f hp) (abs_nonneg _)
  have s2 : absSum (vals x) ≤ (1 + R.γ p) * absSum y := by
    have : absSum (vals x) ≤ ∑ i ∈ range n, (|nth (vals x) i - nth y i| + |nth y i|) := by
      rw [absSum_eq, vals_length, hx]
      refine Finset.sum_le_sum fun i _ => ?_
      have := abs_add_le (nth (vals x) i - nth y i) (nth y i)
      rwa [sub_add_cancel] at this
    rw [Finset.sum_add_distrib] at this
    have e : absSum y = ∑ i ∈ range n, |nth y i| := by rw [absSum_eq, hy]
    linarith
  have t1 := he k (by rw [vals_length, hl']; exact hk)
  have t2 := (dct1_sub hn (show (vals x).length = n by rw [vals_length, hx]) hy hk).trans s1
  have t3 := abs_sub_le (nth (vals (HasDct.dct x)) k) (nth (dct1 (vals x)) k) (nth (dct1 y) k)
  have t4 := mul_le_mul_of_nonneg_left s2 h0
  nlinarith

/-! ### exact transforms of nearby data -/

theorem Cheb.backward_sub {n : ℕ} (hn : 2 ≤ n) {x y out out' X Y : List ℝ} (hx : x.length = n) (hy : y.length = n)
    (ho : out.length = n) (ho' : out'.length = n) (eX : Cheb.backwardSlice ⟨n, n⟩ x out = ok X)
    (eY : Cheb.backwardSlice ⟨n, n⟩ y out' = ok Y) : X.length = n ∧ Y.length = n ∧
      ∀ k < n, |nth X k - nth Y k| ≤ 2 * ∑ i ∈ range n, |nth x i - nth y i| := by
  rw [Cheb.backward_eq hn x out hx ho] at eX
  rw [Cheb.backward_eq hn y out' hy ho'] at eY
  obtain rfl := Res.ok.inj eX
  obtain rfl := Res.ok.inj eY
  rw [dct_real, dct_real]
  refine ⟨by simp, by simp, fun k hk => (dct1_sub hn (by simp) (by simp) hk).trans ?_⟩
  rw [Finset.mul_sum]
  refine Finset.sum_le_sum fun i hi => ?_
  have hi' := Finset.mem_range.mp hi
  have e1 : ∀ {f : ℕ → ℝ}, nth ((List.range n).map f) i = f i := nth_map_range _ _ _ hi'
  rw [e1, e1]
  have in1 : |(if i % 2 = 0 then nth x i else nth x i * -1) - (if i % 2 = 0 then nth y i else nth y i * -1)|
      = |nth x i - nth y i| := by
    split
    · rfl
    · rw [show nth x i * -1 - nth y i * -1 = -(nth x i - nth y i) by ring, abs_neg]
  by_cases h : i = 0 ∨ i = n - 1
  · rw [if_pos h, if_pos h, ← sub_mul, abs_mul, in1, abs_two, mul_comm]
  · rw [if_neg h, if_neg h, in1]; linarith [abs_nonneg (nth x i - nth y i)]

theorem Cheb.forward_sub {n : ℕ} (hn : 2 ≤ n) {x y out out' X Y : List ℝ} (hx : x.length = n) (hy : y.length = n)
    (ho : out.length = n) (ho' : out'.length = n) (eX : Cheb.forwardSlice ⟨n, n⟩ x out = ok X)
    (eY : Cheb.forwardSlice ⟨n, n⟩ y out' = ok Y) : X.length = n ∧ Y.length = n ∧
      ∀ k < n, |nth X k - nth Y k| ≤ 2 / ((n:ℝ) - 1) * ∑ i ∈ range n, |nth x i - nth y i| := by
  have hn1 : (0:ℝ) < (n:ℝ) - 1 := by
    have : (2:ℝ) ≤ n := by exact_mod_cast hn
    linarith
  have hcast : ((n - 1 : ℕ) : ℝ) = (n:ℝ) - 1 := by rw [Nat.cast_sub (by omega)]; simp
  have hcR : divR ((1 + 1) * (1 : ℝ)) ((n - 1 : ℕ) : ℝ) = ok (2 / ((n:ℝ) - 1)) := by
    rw [divR_eq, if_neg (by rw [hcast]; exact hn1.ne'), hcast, smul_eq_mul]
    congr 1
    field_simp; norm_num
  rw [Cheb.forward_eq hn hcR x out hx ho (by rw [dct_real, dct1_length]; simpa using hx)] at eX
  rw [Cheb.forward_eq hn hcR y out' hy ho' (by rw [dct_real, dct1_length]; simpa using hy)] at eY
  obtain rfl := Res.ok.inj eX
  obtain rfl := Res.ok.inj eY
  refine ⟨by simp, by simp, fun k hk => ?_⟩
  have e1 : ∀ {f : ℕ → ℝ}, nth ((List.range n).map f) k = f k := nth_map_range _ _ _ hk
  rw [e1, e1, dct_real, dct_real]
  have d := dct1_sub hn (x := x.reverse.map fun y => y * (2 / ((n:ℝ) - 1))) (y := y.reverse.map fun y => y * (2 / ((n:ℝ) - 1)))
    (by simpa using hx) (by simpa using hy) hk
  have hS : ∑ i ∈ range n, |nth (x.reverse.map fun y => y * (2 / ((n:ℝ) - 1))) i
      - nth (y.reverse.map fun y => y * (2 / ((n:ℝ) - 1))) i| = 2 / ((n:ℝ) - 1) * ∑ i ∈ range n, |nth x i - nth y i| := by
    rw [Finset.mul_sum, ← Finset.sum_range_reflect]
    refine Finset.sum_congr rfl fun i hi => ?_
    have hi' := Finset.mem_range.mp hi
    have r : ∀ (l : List ℝ), l.length = n → nth l.reverse (n - 1 - i) = nth l i := fun l hl => by
      rw [nth_eq_getElem _ _ (by rw [List.length_reverse]; omega), nth_eq_getElem _ _ (by omega), List.getElem_reverse]
      congr 1; omega
    rw [nth_map _ _ _ (by rw [List.length_reverse]; omega), nth_map _ _ _ (by rw [List.length_reverse]; omega), r x hx, r y hy, ← sub_mul, abs_mul,
      abs_of_pos (by positivity : 0 < 2 / ((n:ℝ) - 1)), mul_comm]
  rw [hS] at d
  split
  · rw [← sub_mul, abs_mul, abs_of_pos (by norm_num : (0:ℝ) < 1 / 2)]
    linarith [abs_nonneg (nth (dct1 (x.reverse.map fun y => y * (2 / ((n:ℝ) - 1)))) k
      - nth (dct1 (y.reverse.map fun y => y * (2 / ((n:ℝ) - 1)))) k)]
  · exact d

end Verif
