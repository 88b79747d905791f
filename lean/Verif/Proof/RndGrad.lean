/- Rounding errors of the Chebyshev gradient. -/
import Verif.Proof.RndForm
import Verif.Proof.ChebGrad

namespace Verif
open Res Spec

/-! ### one pass, in any arithmetic -/

/-- The entries after one differentiation pass. -/
structure GradRec (K : Type) {T : Type} [Mul K] [NatCast K] [Zero T] [Add T] [SMul K T] [DivBy K T] (m : ℕ)
    (a b : ℕ → T) : Prop where
  last : b (m - 1) = 0
  pen : b (m - 2) = (2 * ((m - 2 + 1 : ℕ) : K)) • a (m - 2 + 1)
  recur : ∀ i, 1 ≤ i → i + 2 < m → b i = (2 * ((i + 1 : ℕ) : K)) • a (i + 1) + b (i + 2)
  head : ∃ h, divR (b 2) (2 : K) = ok h ∧ b 0 = a 1 + h

theorem wp_gradPass_any {K T : Type} [Mul K] [NatCast K] [Zero T] [Add T] [SMul K T] [DivBy K T] {Q : Err → Prop}
    (hd : ∀ x : T, ∃ y, divR x (2 : K) = ok y) {m : ℕ} (hm : 3 ≤ m) (a : List T) (ha : a.length = m) :
    wp Q (chebGradPass K m a) (fun b => b.length = m ∧ GradRec K m (nth a) (nth b)) := by
  unfold chebGradPass
  wprun
  refine wp_forRange (fun k x => x.length = m ∧ nth x 0 = nth a 1 ∧
      (∀ i, 1 ≤ i → i < k → nth x i = (2 * ((i + 1 : ℕ) : K)) • nth a (i + 1)) ∧
      (∀ i, k ≤ i → nth x i = nth a i))
    ⟨by simpa using ha, ?_, fun i h1 h2 => by omega, fun i hi => ?_⟩ ?_ ?_
  · rw [nth_set_self _ _ _ (by omega)]
  · rw [nth_set_ne _ _ _ _ (by omega)]
  · rintro i x h1 h3 ⟨hx, h0, hlo, hhi⟩
    wprun
    refine ⟨by simpa using hx, ?_, fun j hj1 hj2 => ?_, fun j hj => ?_⟩
    · rw [nth_set_ne _ _ _ _ (by omega), h0]
    · rcases Nat.lt_succ_iff_lt_or_eq.mp hj2 with h | rfl
      · rw [nth_set_ne _ _ _ _ (by omega), hlo j hj1 h]
      · rw [nth_set_self _ _ _ (by omega), hhi _ (by omega)]
    · rw [nth_set_ne _ _ _ _ (by omega), hhi j (by omega)]
  · rintro x ⟨hx, h0, hlo, -⟩
    rw [show max 1 (m - 1) = m - 1 by omega] at hlo
    wprun
    set y := x.set (m - 1) 0 with hy
    have hyl : y.length = m := by simp [hy, hx]
    have y0 : nth y 0 = nth a 1 := by rw [hy, nth_set_ne _ _ _ _ (by omega), h0]
    have yi : ∀ i, 1 ≤ i → i < m - 1 → nth y i = (2 * ((i + 1 : ℕ) : K)) • nth a (i + 1) :=
      fun i h1 h2 => by rw [hy, nth_set_ne _ _ _ _ (by omega), hlo i h1 h2]
    have yl : nth y (m - 1) = 0 := by rw [hy, nth_set_self _ _ _ (by omega)]
    clear_value y
    refine wp_forRev (fun k z => z.length = m ∧ nth z 0 = nth a 1 ∧
        (∀ i, 1 ≤ i → (i < k ∨ m ≤ i + 2) → nth z i = nth y i) ∧
        (∀ i, 1 ≤ i → k ≤ i → i + 2 < m → nth z i = (2 * ((i + 1 : ℕ) : K)) • nth a (i + 1) + nth z (i + 2)))
      ⟨hyl, y0, fun _ _ _ => rfl, fun i h1 h2 h3 => by omega⟩ ?_ ?_
    · rintro i z h1 h3 ⟨hz, z0, zlo, zhi⟩
      wprun
      refine ⟨by simpa using hz, ?_, fun j hj1 hj2 => ?_, fun j hj1 hj2 hj3 => ?_⟩
      · rw [nth_set_ne _ _ _ _ (by omega), z0]
      · rw [nth_set_ne _ _ _ _ (by omega), zlo j hj1 (by omega)]
      · rcases Nat.eq_or_lt_of_le hj2 with rfl | h
        · rw [nth_set_self _ _ _ (by omega), nth_set_ne _ _ _ _ (by omega), zlo i hj1 (by omega),
            yi i hj1 (by omega)]
        · rw [nth_set_ne _ _ _ _ (by omega), nth_set_ne _ _ _ _ (by omega), zhi j hj1 (by omega) hj3]
    · rintro z ⟨hz, z0, zlo, zhi⟩
      wprun
      refine wp_divE (hd _) fun h hh => ?_
      wprun
      refine ⟨by simpa using hz, ?_, ?_, fun i h1 h2 => ?_, h, ?_, ?_⟩
      · rw [nth_set_ne _ _ _ _ (by omega), zlo _ (by omega) (by omega), yl]
      · rw [nth_set_ne _ _ _ _ (by omega), zlo _ (by omega) (by omega), yi _ (by omega) (by omega)]
      · rw [nth_set_ne _ _ _ _ (by omega), nth_set_ne _ _ _ _ (by omega), zhi i h1 (by omega) h2]
      · rw [nth_set_ne _ _ _ _ (by omega)]; exact hh
      · rw [nth_set_self _ _ _ (by omega), z0]

/-! ### errors -/

/-- The computed value `c` differs from the exact value `e` by `p` roundings of the majorant `z` of `e`. -/
structure NearV (R : Rounding) (p : ℕ) (c e z : ℝ) : Prop where
  le : |e| ≤ z
  err : |c - e| ≤ R.γ p * z

namespace NearV
variable {R : Rounding} {p q : ℕ} {c e z c' e' z' θ : ℝ}

theorem nonneg (h : NearV R p c e z) : 0 ≤ z := (abs_nonneg _).trans h.le

theorem mono (h : NearV R p c e z) (hpq : p ≤ q) (hq : q * R.u < 1) : NearV R q c e z :=
  ⟨h.le, h.err.trans (mul_le_mul_of_nonneg_right (R.γ_mono hpq hq) h.nonneg)⟩

theorem zero (p : ℕ) : NearV R p 0 0 0 := ⟨by simp, by simp⟩

theorem self (x : ℝ) : NearV R 0 x x |x| := ⟨le_rfl, by simp [Rounding.γ]⟩

theorem const (h : NearV R p c e z) (k : ℝ) : NearV R p (k * c) (k * e) (|k| * z) := by
  refine ⟨?_, ?_⟩
  · rw [abs_mul]; exact mul_le_mul_of_nonneg_left h.le (abs_nonneg _)
  · rw [← mul_sub, abs_mul]
    have := mul_le_mul_of_nonneg_left h.err (abs_nonneg k)
    linarith

theorem fac (h : NearV R p c e z) (f : Fac R.u q θ) (hpq : ((p + q : ℕ) : ℝ) * R.u < 1) :
    NearV R (p + q) (c * θ) e z := by
  have h0 := R.u_nonneg
  have hq : (q:ℝ) * R.u < 1 := lt_of_le_of_lt (mul_le_mul_of_nonneg_right (by simp) h0) hpq
  have hp : (p:ℝ) * R.u < 1 := lt_of_le_of_lt (mul_le_mul_of_nonneg_right (by simp) h0) hpq
  have gq := R.γ_nonneg hq
  have gp := R.γ_nonneg hp
  have hz := h.nonneg
  refine ⟨h.le, ?_⟩
  have d := R.fac_dist f hq
  rw [show c * θ - e = (c - e) * (θ - 1) + ((c - e) + (θ - 1) * e) by ring]
  have t1 := abs_add_le ((c - e) * (θ - 1)) ((c - e) + (θ - 1) * e)
  have t2 := abs_add_le (c - e) ((θ - 1) * e)
  rw [abs_mul] at t1 t2
  have e1 := mul_le_mul h.err d (abs_nonneg _) (mul_nonneg gp hz)
  have e2 := mul_le_mul d h.le (abs_nonneg _) gq
  have e3 := mul_le_mul_of_nonneg_right (R.γ_add hpq) hz
  have := h.err
  nlinarith

theorem add (h : NearV R p c e z) (h' : NearV R p c' e' z') : NearV R p (c + c') (e + e') (z + z') := by
  refine ⟨(abs_add_le _ _).trans (add_le_add h.le h'.le), ?_⟩
  rw [show c + c' - (e + e') = (c - e) + (c' - e') by ring, mul_add]
  exact (abs_add_le _ _).trans (add_le_add h.err h'.err)

theorem fl (h : NearV R p c e z) (hp : ((p + 1 : ℕ) : ℝ) * R.u < 1) : NearV R (p + 1) (R.fl c) e z := by
  have hu : R.u < 1 := by
    refine lt_of_le_of_lt ?_ hp
    have := mul_le_mul_of_nonneg_right (show (1:ℝ) ≤ ((p + 1 : ℕ) : ℝ) by push_cast; linarith [Nat.cast_nonneg (α := ℝ) p])
      R.u_nonneg
    linarith
  obtain ⟨t, f, e1⟩ := R.fl_fac hu c
  rw [e1]
  exact h.fac f hp

end NearV

variable {R : Rounding}

theorem val_two : (2 : Rnd R).val = R.fl 2 := by
  show R.fl ((2 : ℕ) : ℝ) = _
  norm_num

/-- One pass, in lockstep. -/
theorem grad_near {m p : ℕ} (hm : 3 ≤ m) (hp : ((p + (m / 2 + 6) : ℕ) : ℝ) * R.u < 1) {a b : ℕ → Rnd R} {aR bR aZ bZ : ℕ → ℝ}
    (ha : ∀ i < m, NearV R p (a i).val (aR i) (aZ i)) (h : GradRec (Rnd R) m a b) (hr : GradRec ℝ m aR bR)
    (hz : GradRec ℝ m aZ bZ) : ∀ i < m, NearV R (p + (m / 2 + 6)) (b i).val (bR i) (bZ i) := by
  have h0 := R.u_nonneg
  have lt : ∀ {j : ℕ}, j ≤ p + (m / 2 + 6) → (j:ℝ) * R.u < 1 := fun hj =>
    lt_of_le_of_lt (mul_le_mul_of_nonneg_right (by exact_mod_cast hj) h0) hp
  have hu : R.u < 1 := by have := lt (j := 1) (by omega); simpa using this
  have term : ∀ i, i + 1 < m → NearV R (p + 4) ((2 * ((i + 1 : ℕ) : Rnd R)) • a (i + 1)).val
      ((2 * ((i + 1 : ℕ) : ℝ)) • aR (i + 1)) ((2 * ((i + 1 : ℕ) : ℝ)) • aZ (i + 1)) := by
    intro i hi
    obtain ⟨t1, f1, e1⟩ := R.fl_fac hu 2
    obtain ⟨t2, f2, e2⟩ := R.fl_fac hu ((i + 1 : ℕ) : ℝ)
    obtain ⟨t3, f3, e3⟩ := R.fl_fac hu (R.fl 2 * R.fl ((i + 1 : ℕ) : ℝ))
    obtain ⟨t4, f4, e4⟩ := R.fl_fac hu (R.fl (R.fl 2 * R.fl ((i + 1 : ℕ) : ℝ)) * (a (i + 1)).val)
    rw [Rnd.val_smul, Rnd.val_mul, val_two, Rnd.val_cast, e4, e3, e2, e1]
    have := ((ha (i + 1) hi).const (2 * ((i + 1 : ℕ) : ℝ))).fac
      (((f1.mul hu f2).mul hu f3).mul hu f4) (lt (by omega))
    rw [abs_of_nonneg (by positivity)] at this
    simp only [smul_eq_mul]
    refine cast (congrArg (fun x => NearV R (p + 4) x _ _) ?_) this
    ring
  have pos : ∀ d i, i + 1 + d = m → 1 ≤ i → NearV R (p + 4 + d / 2) (b i).val (bR i) (bZ i) := by
    intro d
    induction d using Nat.strong_induction_on with
    | _ d ih =>
      intro i h1 h2
      rcases d with _ | _ | d
      · obtain rfl : i = m - 1 := by omega
        rw [h.last, hr.last, hz.last]; exact NearV.zero _
      · obtain rfl : i = m - 2 := by omega
        rw [h.pen, hr.pen, hz.pen]
        exact term (m - 2) (by omega)
      · have e : p + 4 + (d + 1 + 1) / 2 = p + 4 + d / 2 + 1 := by omega
        rw [h.recur i h2 (by omega), hr.recur i h2 (by omega), hz.recur i h2 (by omega), e, Rnd.val_add]
        exact (((term i (by omega)).mono (by omega) (lt (by omega))).add (ih d (by omega) (i + 2) (by omega) (by omega))).fl
          (lt (by omega))
  intro i hi
  rcases Nat.eq_zero_or_pos i with rfl | hi0
  · obtain ⟨g, hg, eg⟩ := h.head
    obtain ⟨gR, hgR, egR⟩ := hr.head
    obtain ⟨gZ, hgZ, egZ⟩ := hz.head
    rw [divR_eq, if_neg (by norm_num)] at hgR hgZ
    obtain ⟨_, hg⟩ := Rnd.div_eq hg
    have hgR := (Res.ok.inj hgR).symm
    have hgZ := (Res.ok.inj hgZ).symm
    have b2 := pos (m - 3) 2 (by omega) (by omega)
    obtain ⟨t1, f1, e1⟩ := R.fl_fac hu 2
    obtain ⟨t2, f2, e2⟩ := R.fl_fac hu ((b 2).val / R.fl 2)
    have hh : NearV R (p + 4 + (m - 3) / 2 + 2) g.val gR gZ := by
      rw [hg, hgR, hgZ, val_two, e2, e1]
      have := (b2.const (2⁻¹)).fac ((f1.inv hu).mul hu f2) (lt (by omega))
      rw [abs_of_pos (by norm_num)] at this
      simp only [smul_eq_mul]
      refine cast (congrArg (fun x => NearV R _ x _ _) ?_) this
      have := (f1.pos hu).ne'
      field_simp
    rw [eg, egR, egZ, Rnd.val_add]
    exact ((((ha 1 (by omega)).mono (by omega) (lt (by omega))).add hh).fl (lt (by omega))).mono (by omega) (lt (by omega))
  · exact (pos (m - 1 - i) i (by omega) hi0).mono (by omega) (lt (by omega))

theorem two_div_real (x : ℝ) : ∃ y, divR x (2 : ℝ) = ok y := ⟨_, by rw [divR_eq, if_neg (by norm_num)]⟩

theorem two_div_rnd (hu : R.u < 1) (x : Rnd R) : ∃ y, divR x (2 : Rnd R) = ok y :=
  ⟨_, Rnd.div_ok (by rw [val_two]; exact R.fl_ne_zero hu (by norm_num))⟩

/-- The size of one pass. -/
theorem grad_size {m : ℕ} (hm : 3 ≤ m) {a b : ℕ → ℝ} {Z : ℝ} (ha : ∀ i < m, 0 ≤ a i ∧ a i ≤ Z) (h : GradRec ℝ m a b) :
    ∀ i < m, 0 ≤ b i ∧ b i ≤ (m:ℝ) ^ 2 / 2 * Z := by
  have hZ : 0 ≤ Z := (ha 0 (by omega)).1.trans (ha 0 (by omega)).2
  have hm' : (3:ℝ) ≤ m := by exact_mod_cast hm
  have pos : ∀ d i, i + 1 + d = m → 1 ≤ i → 0 ≤ b i ∧ b i ≤ ((m:ℝ) ^ 2 - (i:ℝ) ^ 2) / 2 * Z := by
    intro d
    induction d using Nat.strong_induction_on with
    | _ d ih =>
      intro i h1 h2
      have hi : (m:ℝ) = i + 1 + d := by exact_mod_cast h1.symm
      rcases d with _ | _ | d
      · obtain rfl : i = m - 1 := by omega
        rw [h.last]
        refine ⟨le_rfl, mul_nonneg ?_ hZ⟩
        rw [hi]; push_cast; nlinarith
      · obtain rfl : i = m - 2 := by omega
        rw [h.pen]
        obtain ⟨p1, p2⟩ := ha (m - 2 + 1) (by omega)
        have : (2 * ((m - 2 + 1 : ℕ) : ℝ)) • a (m - 2 + 1) ≤ (2 * ((m - 2 + 1 : ℕ) : ℝ)) * Z := by
          rw [smul_eq_mul]; exact mul_le_mul_of_nonneg_left p2 (by positivity)
        refine ⟨by rw [smul_eq_mul]; positivity, this.trans (mul_le_mul_of_nonneg_right ?_ hZ)⟩
        rw [hi]; push_cast; nlinarith
      · obtain ⟨q1, q2⟩ := ih d (by omega) (i + 2) (by omega) (by omega)
        rw [h.recur i h2 (by omega)]
        obtain ⟨p1, p2⟩ := ha (i + 1) (by omega)
        have : (2 * ((i + 1 : ℕ) : ℝ)) • a (i + 1) ≤ (2 * ((i + 1 : ℕ) : ℝ)) * Z := by
          rw [smul_eq_mul]; exact mul_le_mul_of_nonneg_left p2 (by positivity)
        refine ⟨add_nonneg (by rw [smul_eq_mul]; positivity) q1, (add_le_add this q2).trans (le_of_eq ?_)⟩
        push_cast; ring
  intro i hi
  rcases Nat.eq_zero_or_pos i with rfl | hi0
  · obtain ⟨g, hg, eg⟩ := h.head
    rw [divR_eq, if_neg (by norm_num)] at hg
    have hg := (Res.ok.inj hg).symm
    rw [eg, hg, smul_eq_mul]
    obtain ⟨p1, p2⟩ := ha 1 (by omega)
    obtain ⟨q1, q2⟩ := pos (m - 3) 2 (by omega) (by omega)
    refine ⟨by positivity, ?_⟩
    push_cast at q2
    nlinarith
  · obtain ⟨q1, q2⟩ := pos (m - 1 - i) i (by omega) hi0
    refine ⟨q1, q2.trans (mul_le_mul_of_nonneg_right ?_ hZ)⟩
    nlinarith [sq_nonneg (i:ℝ)]

/-- All passes, in lockstep. -/
theorem gradient_near {m p : ℕ} (hm : 3 ≤ m) (d : ℕ) (hp : ((p + d * (m / 2 + 6) : ℕ) : ℝ) * R.u < 1) (hu : R.u < 1) (a : List (Rnd R))
    (aR aZ : List ℝ) (ha : a.length = m) (haR : aR.length = m) (haZ : aZ.length = m)
    (hn : ∀ i < m, NearV R p (nth (vals a) i) (nth aR i) (nth aZ i)) :
    ∃ b bR bZ, forRange 0 d (fun _ out => chebGradPass (Rnd R) m out) a = ok b ∧
      forRange 0 d (fun _ out => chebGradPass ℝ m out) aR = ok bR ∧
      forRange 0 d (fun _ out => chebGradPass ℝ m out) aZ = ok bZ ∧
      b.length = m ∧ bR.length = m ∧ bZ.length = m ∧
      (∀ i < m, NearV R (p + d * (m / 2 + 6)) (nth (vals b) i) (nth bR i) (nth bZ i)) ∧
      ∀ Z, (∀ i < m, nth aZ i ≤ Z) → ∀ i < m, nth bZ i ≤ ((m:ℝ) ^ 2 / 2) ^ d * Z := by
  induction d with
  | zero =>
    refine ⟨a, aR, aZ, rfl, rfl, rfl, ha, haR, haZ, ?_, fun Z hZ i hi => by simpa using hZ i hi⟩
    simpa using hn
  | succ d ih =>
    have hp' : ((p + d * (m / 2 + 6) : ℕ) : ℝ) * R.u < 1 :=
      lt_of_le_of_lt (mul_le_mul_of_nonneg_right (by exact_mod_cast (by rw [Nat.succ_mul]; omega)) R.u_nonneg) hp
    obtain ⟨b, bR, bZ, e1, e2, e3, l1, l2, l3, h, hs⟩ := ih hp'
    obtain ⟨c, f1, m1, g1⟩ := wp_total.mp (wp_gradPass_any (Q := fun _ => False) (two_div_rnd hu) hm b l1)
    obtain ⟨cR, f2, m2, g2⟩ := wp_total.mp (wp_gradPass_any (Q := fun _ => False) two_div_real hm bR l2)
    obtain ⟨cZ, f3, m3, g3⟩ := wp_total.mp (wp_gradPass_any (Q := fun _ => False) two_div_real hm bZ l3)
    have eq : p + (d + 1) * (m / 2 + 6) = p + d * (m / 2 + 6) + (m / 2 + 6) := by ring
    rw [eq] at hp ⊢
    refine ⟨c, cR, cZ, ?_, ?_, ?_, m1, m2, m3, fun i hi => ?_, fun Z hZ i hi => ?_⟩
    · rw [forRange_const_succ, e1]; exact f1
    · rw [forRange_const_succ, e2]; exact f2
    · rw [forRange_const_succ, e3]; exact f3
    · rw [Rnd.nth_vals]
      exact grad_near hm hp (fun i hi => by have := h i hi; rwa [Rnd.nth_vals] at this) g1 g2 g3 i hi
    · have := (grad_size hm (Z := ((m:ℝ) ^ 2 / 2) ^ d * Z) (fun i hi => ⟨(h i hi).nonneg, hs Z hZ i hi⟩) g3 i hi).2
      refine this.trans (le_of_eq ?_)
      ring

theorem Cheb.gradient_eq {K T : Type} [Mul K] [NatCast K] [Zero T] [Add T] [SMul K T] [DivBy K T] {n : ℕ} (a out : List T)
    (ha : a.length = n) (ho : out.length = n) (d : ℕ) :
    Cheb.gradientSlice K ⟨n, n⟩ a out d = forRange 0 d (fun _ out => chebGradPass K n out) a := by
  unfold Cheb.gradientSlice
  rw [show assertR (out.length = n) = ok () from if_pos ho, bind_ok, zipSet_eq_map _ _ _ (by omega), List.map_id]

end Verif
