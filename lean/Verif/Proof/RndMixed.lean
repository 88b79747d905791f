/- The mixed basis (Dirichlet at one end, Neumann at the other) in arithmetic with rounding: coefficients and `to_ortho`. -/
import Verif.Proof.RndGrad
import Verif.Proof.RndForm

namespace Verif
open Res Spec

section stencils
variable {K T : Type} [Zero K] [One K] [Neg K] [Add K] [Sub K] [Mul K] [NatCast K] [Pow K ℕ] [DivBy K K]
  [Zero T] [Add T] [Sub T] [SMul K T] [DivBy K T]

/-- what the constructor establishes about the diagonals -/
structure Stencil3.Form (s : Stencil3 K) (m : ℕ) (d l1 l2 : ℕ → K) : Prop where
  diag : s.diag = (List.range m).map d
  low1 : s.low1 = (List.range m).map l1
  low2 : s.low2 = (List.range m).map l2
  fdiag : s.fdmaDiag = (List.range m).map (fun i => d i * d i + l1 i * l1 i + l2 i * l2 i)
  foff1 : s.fdmaOff1 = (List.range (m - 1)).map (fun i => d (i + 1) * l1 i + l1 (i + 1) * l2 i)
  foff2 : s.fdmaOff2 = (List.range (m - 2)).map (fun i => d (i + 2) * l2 i)

theorem Stencil3.new_form {Q : Err → Prop} {m : ℕ} {d l1 l2 : ℕ → K} (hm : 2 ≤ m) :
    wp Q (Stencil3.new ((List.range m).map d) ((List.range m).map l1) ((List.range m).map l2))
      (fun s => s.Form m d l1 l2) := by
  unfold Stencil3.new
  simp only [List.length_map, List.length_range]
  wprun
  simp only [List.length_replicate]
  refine wp_fill (fun i => d i * d i + l1 i * l1 i + l2 i * l2 i) (by simp) ?_ ?_
  · intro i hi v hv
    wprun
    rw [nth_map_range _ _ _ hi, nth_map_range _ _ _ hi, nth_map_range _ _ _ hi]
  wprun
  refine wp_fill (fun i => d (i + 1) * l1 i + l1 (i + 1) * l2 i) (by simp) ?_ ?_
  · intro i hi v hv
    wprun
    rw [nth_map_range _ _ _ (by omega), nth_map_range _ _ _ (by omega), nth_map_range _ _ _ (by omega),
      nth_map_range _ _ _ (by omega)]
  wprun
  refine wp_fill (fun i => d (i + 2) * l2 i) (by simp) ?_ ?_
  · intro i hi v hv
    wprun
    rw [nth_map_range _ _ _ (by omega), nth_map_range _ _ _ (by omega)]
  wprun
  exact ⟨rfl, rfl, rfl, rfl, rfl, rfl⟩

variable {s : Stencil3 K} {m : ℕ} {d l1 l2 : ℕ → K}

/-- the entries of `dot` -/
def dot3At (m : ℕ) (d l1 l2 : ℕ → K) (v : ℕ → T) (i : ℕ) : T :=
  if i = 0 then d 0 • v 0 else if i = 1 then d 1 • v 1 + l1 0 • v 0
  else if i < m then d i • v i + l1 (i - 1) • v (i - 1) + l2 (i - 2) • v (i - 2)
  else if i = m then l1 (i - 1) • v (i - 1) + l2 (i - 2) • v (i - 2) else l2 (i - 2) • v (i - 2)

theorem Stencil3.Form.dot_eq (hs : s.Form m d l1 l2) (hm : 2 ≤ m) (v u : List T) (hv : v.length = m)
    (hu : u.length = m + 2) : s.dot v u = ok ((List.range (m + 2)).map (dot3At m d l1 l2 (nth v))) := by
  have hd : s.diag.length = m := by rw [hs.diag]; simp
  have hl1 : s.low1.length = m := by rw [hs.low1]; simp
  have hl2 : s.low2.length = m := by rw [hs.low2]; simp
  have e0 : ∀ i < m, nth s.diag i = d i := fun i hi => by rw [hs.diag, nth_map_range _ _ _ hi]
  have e1 : ∀ i < m, nth s.low1 i = l1 i := fun i hi => by rw [hs.low1, nth_map_range _ _ _ hi]
  have e2 : ∀ i < m, nth s.low2 i = l2 i := fun i hi => by rw [hs.low2, nth_map_range _ _ _ hi]
  apply eq_of_wp
  unfold Stencil3.dot
  rw [hu]
  wprun
  refine wp_forRange (fun k x => x.length = m + 2 ∧ ∀ i < k, i < m → nth x i = dot3At m d l1 l2 (nth v) i)
    ⟨by simpa using hu, ?_⟩ ?_ ?_
  · intro i hi _
    have : i = 0 ∨ i = 1 := by omega
    rcases this with rfl | rfl
    · rw [nth_set_ne _ _ _ _ (by omega), nth_set_self _ _ _ (by omega), dot3At, if_pos rfl, e0 0 (by omega)]
    · rw [nth_set_self _ _ _ (by simp; omega), dot3At, if_neg (by omega), if_pos rfl, e0 1 (by omega), e1 0 (by omega)]
  · rintro i x h2 him ⟨hx, hk⟩
    wprun
    refine ⟨by simpa using hx, fun k hk' hm' => ?_⟩
    rcases Nat.lt_succ_iff_lt_or_eq.mp hk' with h' | rfl
    · rw [nth_set_ne _ _ _ _ (by omega)]; exact hk k h' hm'
    · rw [nth_set_self _ _ _ (by omega), dot3At, if_neg (by omega), if_neg (by omega), if_pos (by omega),
        e0 _ (by omega), e1 _ (by omega), e2 _ (by omega)]
  · rintro x ⟨hx, hk⟩
    wprun
    apply ext_nth (by simpa using hx)
    intro i hi
    simp only [List.length_set, hx] at hi
    rw [nth_map_range _ _ _ hi]
    simp only [show m + 2 - 2 = m by omega, show m + 2 - 4 = m - 2 by omega,
      show m + 2 - 1 = m + 1 by omega, show m + 2 - 3 = m - 1 by omega]
    have : i < m ∨ i = m ∨ i = m + 1 := by omega
    rcases this with h | rfl | rfl
    · rw [nth_set_ne _ _ _ _ (by omega), nth_set_ne _ _ _ _ (by omega), hk i (by omega) h]
    · rw [nth_set_ne _ _ _ _ (by omega), nth_set_self _ _ _ (by omega), dot3At, if_neg (by omega),
        if_neg (by omega), if_neg (by omega), if_pos rfl, e1 _ (by omega), e2 _ (by omega)]
    · rw [nth_set_self _ _ _ (by simp; omega), dot3At, if_neg (by omega), if_neg (by omega), if_neg (by omega),
        if_neg (by omega), e2 _ (by omega), show m + 1 - 2 = m - 1 by omega]

variable [Div K]

/-- what a constructed mixed base holds -/
theorem Compo.mixed_form {n : ℕ} (h4 : 4 ≤ n) {b : Compo K} (hb : Compo.new .dirichletNeumann n = ok b) :
    b.n = n ∧ b.m = n - 2 ∧ b.ortho = ⟨n, n⟩ ∧ ∃ s l1 l2, b.stencil = .dirichletNeumann s ∧
      s.Form (n - 2) (fun _ => 1) l1 l2 ∧ ∀ k < n - 2,
        divR (-1 * (k : K) ^ 2 + ((k : K) + 2) ^ 2) (((k : K) + 1) ^ 2 + ((k : K) + 2) ^ 2) = ok (l1 k) ∧
        divR (-1 * (k : K) ^ 2 - ((k : K) + 1) ^ 2) (((k : K) + 1) ^ 2 + ((k : K) + 2) ^ 2) = ok (l2 k) := by
  refine of_wp_ok (P := fun b : Compo K => b.n = n ∧ b.m = n - 2 ∧ b.ortho = ⟨n, n⟩ ∧ ∃ s l1 l2,
      b.stencil = .dirichletNeumann s ∧ s.Form (n - 2) (fun _ => 1) l1 l2 ∧ ∀ k < n - 2,
        divR (-1 * (k : K) ^ 2 + ((k : K) + 2) ^ 2) (((k : K) + 1) ^ 2 + ((k : K) + 2) ^ 2) = ok (l1 k) ∧
        divR (-1 * (k : K) ^ 2 - ((k : K) + 1) ^ 2) (((k : K) + 1) ^ 2 + ((k : K) + 2) ^ 2) = ok (l2 k)) ?_ hb
  unfold Compo.new dirichletNeumannNew
  wprun
  refine wp_forRange (fun i (v : List K × List K) => v.1.length = n - 2 ∧ v.2.length = n - 2 ∧ ∀ k < i,
    divR (-1 * (k : K) ^ 2 + ((k : K) + 2) ^ 2) (((k : K) + 1) ^ 2 + ((k : K) + 2) ^ 2) = ok (nth v.1 k) ∧
    divR (-1 * (k : K) ^ 2 - ((k : K) + 1) ^ 2) (((k : K) + 1) ^ 2 + ((k : K) + 2) ^ 2) = ok (nth v.2 k))
    ⟨by simp, by simp, by simp⟩ ?_ ?_
  · rintro i ⟨v1, v2⟩ - hi ⟨hv1, hv2, hk⟩
    dsimp only at hv1 hv2 hk ⊢
    wprun
    refine wp_divP fun y1 hy1 => ?_
    wprun
    refine wp_divP fun y2 hy2 => ?_
    wprun
    refine ⟨by simpa using hv1, by simpa using hv2, fun k hk' => ?_⟩
    rcases Nat.lt_succ_iff_lt_or_eq.mp hk' with h | rfl
    · rw [nth_set_ne _ _ _ _ (by omega), nth_set_ne _ _ _ _ (by omega)]; exact hk k h
    · rw [nth_set_self _ _ _ (by omega), nth_set_self _ _ _ (by omega)]; exact ⟨hy1, hy2⟩
  rintro ⟨v1, v2⟩ ⟨hv1, hv2, hk⟩
  dsimp only at hv1 hv2 hk ⊢
  rw [replicate_eq_map, show v1 = (List.range (n - 2)).map (nth v1) from
    ext_nth (by simpa using hv1) fun i hi => (nth_map_range _ _ _ (by omega)).symm,
    show v2 = (List.range (n - 2)).map (nth v2) from
    ext_nth (by simpa using hv2) fun i hi => (nth_map_range _ _ _ (by omega)).symm]
  wprun
  refine wp_mono (Stencil3.new_form (by omega)) fun s hs => ?_
  wprun
  refine wp_mono (wp_chebNew (by omega)) ?_
  rintro _ rfl
  wprun
  refine ⟨rfl, rfl, rfl, s, nth v1, nth v2, rfl, hs, fun k hk' => hk k (by omega)⟩

end stencils

/-! ### rounding -/

section rounding
variable {R : Rounding}

/-- `c` is `e` with `p` relative roundings -/
def RelV (R : Rounding) (p : ℕ) (c e : ℝ) : Prop := ∃ θ, Fac R.u p θ ∧ c = e * θ

namespace RelV
variable {p q : ℕ} {c e c' e' : ℝ}

theorem mono (hu : R.u < 1) (h : RelV R p c e) (hpq : p ≤ q) : RelV R q c e := by
  obtain ⟨t, f, rfl⟩ := h
  exact ⟨t, f.mono R.u_nonneg hu hpq, rfl⟩

theorem exact (x : ℝ) : RelV R 0 x x := ⟨1, Fac.one, by ring⟩

theorem fl (hu : R.u < 1) (h : RelV R p c e) : RelV R (p + 1) (R.fl c) e := by
  obtain ⟨t, f, rfl⟩ := h
  obtain ⟨t', f', e'⟩ := R.fl_fac hu (e * t)
  exact ⟨t * t', f.mul hu f', by rw [e']; ring⟩

theorem sq (hu : R.u < 1) (h : RelV R p c e) : RelV R (p + p) (c ^ 2) (e ^ 2) := by
  obtain ⟨t, f, rfl⟩ := h
  exact ⟨t * t, f.mul hu f, by ring⟩

theorem neg (h : RelV R p c e) : RelV R p (-c) (-e) := by
  obtain ⟨t, f, rfl⟩ := h
  exact ⟨t, f, by ring⟩

theorem add (h : RelV R p c e) (h' : RelV R p c' e') (he : 0 ≤ e) (he' : 0 ≤ e') : RelV R p (c + c') (e + e') := by
  obtain ⟨t, f, rfl⟩ := h
  obtain ⟨t', f', rfl⟩ := h'
  rcases eq_or_lt_of_le (add_nonneg he he') with h0 | h0
  · have h1 : e = 0 := by linarith
    have h2 : e' = 0 := by linarith
    exact ⟨t, f, by rw [h1, h2]; ring⟩
  · refine ⟨(e * t + e' * t') / (e + e'), ⟨?_, ?_⟩, by field_simp⟩
    · rw [le_div_iff₀ h0]
      have := mul_le_mul_of_nonneg_left f.lo he
      have := mul_le_mul_of_nonneg_left f'.lo he'
      linarith
    · rw [div_mul_eq_mul_div, div_le_one h0]
      have := mul_le_mul_of_nonneg_left f.hi he
      have := mul_le_mul_of_nonneg_left f'.hi he'
      linarith

theorem div (hu : R.u < 1) (h : RelV R p c e) (h' : RelV R q c' e') : RelV R (p + q) (c / c') (e / e') := by
  obtain ⟨t, f, rfl⟩ := h
  obtain ⟨t', f', rfl⟩ := h'
  refine ⟨t * t'⁻¹, f.mul hu (f'.inv hu), ?_⟩
  rw [mul_div_mul_comm, div_eq_mul_inv t]

theorem near (h : RelV R p c e) (hp : p * R.u < 1) : NearV R p c e |e| := by
  obtain ⟨t, f, rfl⟩ := h
  refine ⟨le_rfl, ?_⟩
  rw [show e * t - e = (t - 1) * e by ring, abs_mul]
  exact mul_le_mul_of_nonneg_right (R.fac_dist f hp) (abs_nonneg _)

theorem ne_zero (hu : R.u < 1) (h : RelV R p c e) (he : e ≠ 0) : c ≠ 0 := by
  obtain ⟨t, f, rfl⟩ := h
  exact mul_ne_zero he (f.pos hu).ne'

end RelV

/-- a larger majorant -/
theorem NearV.weaken {p : ℕ} {c e z z' : ℝ} (h : NearV R p c e z) (hz : z ≤ z') (hp : p * R.u < 1) : NearV R p c e z' :=
  ⟨h.le.trans hz, h.err.trans (mul_le_mul_of_nonneg_left hz (R.γ_nonneg hp))⟩

/-- the parts of the coefficients of the mixed basis -/
theorem mixed_parts (hu : R.u < 1) (k : ℕ) :
    RelV R 5 ((-1 : Rnd R) * (k : Rnd R) ^ 2).val (-(k:ℝ) ^ 2) ∧
    RelV R 5 (((k : Rnd R) + 1) ^ 2).val (((k:ℝ) + 1) ^ 2) ∧
    RelV R 5 (((k : Rnd R) + 2) ^ 2).val (((k:ℝ) + 2) ^ 2) ∧
    RelV R 6 (((k : Rnd R) + 1) ^ 2 + ((k : Rnd R) + 2) ^ 2).val (((k:ℝ) + 1) ^ 2 + ((k:ℝ) + 2) ^ 2) := by
  have hk : RelV R 1 (k : Rnd R).val (k:ℝ) := (RelV.exact _).fl hu
  have hk0 : (0:ℝ) ≤ k := Nat.cast_nonneg k
  have h1 : RelV R 5 (((k : Rnd R) + 1) ^ 2).val (((k:ℝ) + 1) ^ 2) :=
    ((((hk.add ((RelV.exact 1).mono hu (by omega)) hk0 zero_le_one).fl hu).sq hu).fl hu)
  have h2 : RelV R 5 (((k : Rnd R) + 2) ^ 2).val (((k:ℝ) + 2) ^ 2) := by
    have t : RelV R 1 (2 : Rnd R).val 2 := by rw [val_two]; exact (RelV.exact 2).fl hu
    exact (((hk.add t hk0 zero_le_two).fl hu).sq hu).fl hu
  refine ⟨?_, h1, h2, (h1.add h2 (by positivity) (by positivity)).fl hu⟩
  have : RelV R 3 ((k : Rnd R) ^ 2).val ((k:ℝ) ^ 2) := (hk.sq hu).fl hu
  have e : ((-1 : Rnd R) * (k : Rnd R) ^ 2).val = R.fl (-((k : Rnd R) ^ 2).val) := by
    rw [Rnd.val_mul, Rnd.val_neg, Rnd.val_one, neg_one_mul]
  rw [e]
  exact (this.neg.fl hu).mono hu (by omega)

/-- the exact coefficients of the mixed basis -/
noncomputable def mixL1 (k : ℕ) : ℝ := (-(k:ℝ) ^ 2 + ((k:ℝ) + 2) ^ 2) / (((k:ℝ) + 1) ^ 2 + ((k:ℝ) + 2) ^ 2)
noncomputable def mixL2 (k : ℕ) : ℝ := (-(k:ℝ) ^ 2 - ((k:ℝ) + 1) ^ 2) / (((k:ℝ) + 1) ^ 2 + ((k:ℝ) + 2) ^ 2)

/-- a quotient of rounded numbers, where the numerator is a sum of two terms -/
theorem sum_quot_near (hu : R.u < 1) {a b c a' b' c' : ℝ} (h13 : (13:ℕ) * R.u < 1) (ha : RelV R 5 a' a) (hb : RelV R 5 b' b)
    (hc : RelV R 6 c' c) (hc0 : 0 < c) (hz : |a| + |b| ≤ c) :
    NearV R 13 (R.fl (R.fl (a' + b') / c')) ((a + b) / c) 1 := by
  obtain ⟨t, f, e⟩ := R.fl_fac hu (a' + b')
  obtain ⟨t', f', e'⟩ := R.fl_fac hu (R.fl (a' + b') / c')
  obtain ⟨tc, fc, ec⟩ := hc
  have one : ∀ {x x' : ℝ}, RelV R 5 x' x → NearV R 13 (x' * (t * tc⁻¹ * t') / c) (x / c) (|x| / c) := by
    rintro x x' ⟨tx, fx, ex⟩
    have r : RelV R 13 (x' * (t * tc⁻¹ * t') / c) (x / c) :=
      ⟨tx * (t * tc⁻¹ * t'), (fx.mul hu ((f.mul hu (fc.inv hu)).mul hu f')), by rw [ex]; ring⟩
    have := r.near h13
    rwa [abs_div, abs_of_pos hc0] at this
  have := ((one ha).add (one hb)).weaken (z' := 1) (by
    rw [← add_div, div_le_one hc0]; exact hz) h13
  convert! this using 1
  · rw [e', e, ec]
    field_simp
  · rw [add_div]

theorem mixed_near (h13 : (13:ℕ) * R.u < 1) {k : ℕ} {l1 l2 : Rnd R}
    (h1 : divR (-1 * (k : Rnd R) ^ 2 + ((k : Rnd R) + 2) ^ 2) (((k : Rnd R) + 1) ^ 2 + ((k : Rnd R) + 2) ^ 2) = ok l1)
    (h2 : divR (-1 * (k : Rnd R) ^ 2 - ((k : Rnd R) + 1) ^ 2) (((k : Rnd R) + 1) ^ 2 + ((k : Rnd R) + 2) ^ 2) = ok l2) :
    NearV R 13 l1.val (mixL1 k) 1 ∧ NearV R 13 l2.val (mixL2 k) 1 := by
  have hu : R.u < 1 := by have := R.u_nonneg; push_cast at h13; linarith
  obtain ⟨p0, p1, p2, pd⟩ := mixed_parts (R := R) hu k
  have hk0 : (0:ℝ) ≤ k := Nat.cast_nonneg k
  constructor
  · rw [(Rnd.div_eq h1).2, Rnd.val_add]
    refine sum_quot_near hu h13 p0 p2 pd (by positivity) ?_
    rw [abs_neg, abs_of_nonneg (by positivity), abs_of_nonneg (by positivity)]; nlinarith
  · rw [(Rnd.div_eq h2).2, Rnd.val_sub, sub_eq_add_neg]
    unfold mixL2
    rw [sub_eq_add_neg (-(k:ℝ) ^ 2)]
    refine sum_quot_near hu h13 p0 p1.neg pd (by positivity) ?_
    rw [abs_neg, abs_neg, abs_of_nonneg (by positivity), abs_of_nonneg (by positivity)]; nlinarith

theorem mixed_exact {k : ℕ} {l1 l2 : ℝ}
    (h1 : divR (-1 * (k : ℝ) ^ 2 + ((k : ℝ) + 2) ^ 2) (((k : ℝ) + 1) ^ 2 + ((k : ℝ) + 2) ^ 2) = ok l1)
    (h2 : divR (-1 * (k : ℝ) ^ 2 - ((k : ℝ) + 1) ^ 2) (((k : ℝ) + 1) ^ 2 + ((k : ℝ) + 2) ^ 2) = ok l2) :
    l1 = mixL1 k ∧ l2 = mixL2 k := by
  have hk0 : (0:ℝ) ≤ k := Nat.cast_nonneg k
  rw [divR_eq, if_neg (by positivity)] at h1 h2
  refine ⟨(Res.ok.inj h1).symm.trans ?_, (Res.ok.inj h2).symm.trans ?_⟩
  · unfold mixL1; rw [neg_one_mul, smul_eq_mul, inv_mul_eq_div]
  · unfold mixL2; rw [neg_one_mul, smul_eq_mul, inv_mul_eq_div]

/-- the majorant of the entries of `to_ortho` -/
noncomputable def mixMaj (v : ℕ → ℝ) (i : ℕ) : ℝ :=
  |v i| + (if 1 ≤ i then |v (i - 1)| else 0) + (if 2 ≤ i then |v (i - 2)| else 0)

/-- `to_ortho` of the mixed basis: the computed entries, the exact ones and their majorant -/
theorem dot3_near {m : ℕ} (hm : 2 ≤ m) (h16 : (16:ℕ) * R.u < 1) {l1 l2 : ℕ → Rnd R} {k1 k2 : ℕ → ℝ}
    (h1 : ∀ k < m, NearV R 13 (l1 k).val (k1 k) 1) (h2 : ∀ k < m, NearV R 13 (l2 k).val (k2 k) 1)
    (v : ℕ → Rnd R) (i : ℕ) (hi : i < m + 2) :
    NearV R 16 (dot3At m (fun _ => 1) l1 l2 v i).val (dot3At m (fun _ => (1:ℝ)) k1 k2 (fun j => (v j).val) i)
      (mixMaj (fun j => (v j).val) i) := by
  have h0 := R.u_nonneg
  have lt : ∀ {j : ℕ}, j ≤ 16 → (j:ℝ) * R.u < 1 := fun {j} hj =>
    lt_of_le_of_lt (mul_le_mul_of_nonneg_right (by exact_mod_cast hj) h0) h16
  have d : ∀ j, NearV R 14 ((1 : Rnd R) • v j).val ((1:ℝ) • (v j).val) |(v j).val| := fun j => by
    rw [Rnd.val_smul, Rnd.val_one, one_mul, one_smul]
    exact ((NearV.self _).fl (lt (by omega))).mono (by omega) (lt (by omega))
  have c : ∀ {l : Rnd R} {k : ℝ} (j : ℕ), NearV R 13 l.val k 1 → NearV R 14 (l • v j).val (k • (v j).val) |(v j).val| :=
    fun {l k} j h => by
      rw [Rnd.val_smul, smul_eq_mul]
      have := (h.const (v j).val).fl (lt (by omega))
      rwa [mul_comm _ l.val, mul_comm _ k, mul_one] at this
  have up : ∀ {p : ℕ} {x e z z' : ℝ}, NearV R p x e z → p ≤ 16 → z ≤ z' → NearV R 16 x e z' := fun {p x e z z'} h hp hz =>
    (h.mono hp (lt le_rfl)).weaken hz (lt le_rfl)
  unfold dot3At mixMaj
  by_cases hi0 : i = 0
  · subst hi0
    simp only [if_true, show ¬ (1:ℕ) ≤ 0 by omega, show ¬ (2:ℕ) ≤ 0 by omega, if_false]
    exact up (d 0) (by omega) (by linarith)
  by_cases hi1 : i = 1
  · subst hi1
    simp only [if_true, show ¬ (1:ℕ) = 0 by omega, show ¬ (2:ℕ) ≤ 1 by omega, if_false, le_refl]
    exact up (((d 1).add (c 0 (h1 0 (by omega)))).fl (lt (by omega))) (by omega) (by simp)
  simp only [if_neg hi0, if_neg hi1, if_pos (show 1 ≤ i by omega), if_pos (show 2 ≤ i by omega)]
  by_cases him : i < m
  · simp only [if_pos him]
    exact up ((((d i).add (c (i - 1) (h1 _ (by omega)))).fl (lt (by omega))).add
      ((c (i - 2) (h2 _ (by omega))).mono (by omega) (lt (by omega))) |>.fl (lt (by omega))) le_rfl le_rfl
  by_cases him' : i = m
  · simp only [if_neg him, if_pos him']
    exact up (((c (i - 1) (h1 _ (by omega))).add (c (i - 2) (h2 _ (by omega)))).fl (lt (by omega))) (by omega)
      (by linarith [abs_nonneg (v i).val])
  · simp only [if_neg him, if_neg him']
    exact up (c (i - 2) (h2 _ (by omega))) (by omega)
      (by linarith [abs_nonneg (v i).val, abs_nonneg (v (i - 1)).val])

theorem mixMaj_le {v : ℕ → ℝ} {V : ℝ} (hV : ∀ j, |v j| ≤ V) (i : ℕ) : mixMaj v i ≤ 3 * V := by
  have h0 : 0 ≤ V := (abs_nonneg _).trans (hV 0)
  have := hV i
  have := hV (i - 1)
  have := hV (i - 2)
  unfold mixMaj
  split <;> split <;> linarith

end rounding
end Verif
