/-
Property C97: numerical differentiation of functions of two variables, truncation and rounding together.
-/
import Verif.Proof.Total2
import Verif.Props.Scale
import Verif.Props.Accuracy2

namespace Verif.Props
open Verif Res Spec Finset Polynomial

/-- Sizes of the Chebyshev-type bases. -/
theorem r2r_lens {A T : Type} [Zero A] [One A] [Neg A] [Add A] [Sub A] [Mul A] [Div A] [NatCast A] [Pow A ℕ] [DivBy A A]
    [HasDct A] [Libm A] [Zero T] [Add T] [Sub T] [SMul A T] [DivBy A T] {k : Option CKind} {n : ℕ} {b : BaseR2r A}
    (hm : RunsMul k) (hs : RunsSolve k n) (hb : newR2r k n A = ok b) :
    (b.toBase T).lenPhys = n ∧ (b.toBase T).lenOrth = n := by
  rcases k with _ | k
  · obtain ⟨-, rfl⟩ := chebyshev_inv hb
    exact ⟨rfl, rfl⟩
  · obtain ⟨c, hc, rfl⟩ := composite_inv hb
    have h4 : 4 ≤ n := le_trans (by cases k <;> decide) (show k.minSolve ≤ n from hs)
    obtain ⟨h1, -, -, h2⟩ := compo_lens hm h4 hc
    exact ⟨h1, h2⟩

theorem newR2r_of {A : Type} [Zero A] [One A] [Neg A] [Add A] [Sub A] [Mul A] [Div A] [NatCast A] [Pow A ℕ] [DivBy A A]
    {k : Option CKind} {n : ℕ} {b : BaseR2r A} (hb : newR2r k n A = ok b) (hs : RunsSolve k n) : ∃ b, newR2r k n = ok b := by
  rcases k with _ | k
  · obtain ⟨hn, -⟩ := chebyshev_inv hb
    exact newR2r_exists none n hn (by rintro c ⟨⟩)
  · have h := (show k.minSolve ≤ n from hs)
    refine newR2r_exists (some k) n (le_trans (by cases k <;> decide) h) ?_
    rintro c ⟨⟩
    exact le_trans (by cases k <;> decide) h

section
variable {R : Rounding} [HasDct (Rnd R)] [Libm (Rnd R)] [Powi (Rnd R)]

/-! ### One dimension -/

/-- C97 on one axis: `cheb_dirichlet`, for functions that vanish at the ends. -/
theorem C97_dirichlet (n : ℕ) (hn : 5 ≤ n) (b o : BaseR2r (Rnd R)) (hb : newR2r (some .dirichlet) n (Rnd R) = ok b)
    (hu : SmallUnit R n (some .dirichlet)) (ho : chebyshev n (Rnd R) = ok o) {η : ℝ} (hη : 0 ≤ η) (hD : DctError R n η)
    (h8 : 8 * R.u < 1) (d : ℕ) (hd : ((d * (n / 2 + 6) : ℕ) : ℝ) * R.u < 1) (a : ℕ → ℝ)
    (hs : Summable (fun k : ℕ => |a k| * (k : ℝ) ^ (2 * d))) (f : ℝ → ℝ)
    (hf : ∀ x ∈ Set.Icc (-1 : ℝ) 1, HasSum (fun k : ℕ => a k * (Chebyshev.T ℝ k).eval x) (f x))
    (h0 : f (-1) = 0) (h1 : f 1 = 0) (F ε : ℝ) (hF : ∀ x ∈ Set.Icc (-1 : ℝ) 1, |f x| ≤ F) (x : List (Rnd R))
    (hx : x.length = n) (hxf : ∀ j < n, |(nth x j).val - f (-Real.cos (Real.pi * j / (n - 1 : ℕ)))| ≤ ε)
    (out out' out'' : List (Rnd R)) (h : out.length = (b.toBase (Rnd R)).lenSpec)
    (h' : out'.length = (b.toBase (Rnd R)).lenOrth) (h'' : out''.length = (o.toBase (Rnd R)).lenPhys) :
    ∃ v g w, (b.toBase (Rnd R)).forwardSlice x out = ok v ∧ (b.toBase (Rnd R)).gradientSlice v out' d = ok g ∧
      (o.toBase (Rnd R)).backwardSlice g out'' = ok w ∧ w.length = n ∧ ∀ j < n, |(nth w j).val -
        iteratedDerivWithin d f (Set.Icc (-1) 1) (-Real.cos (Real.pi * j / (n - 1 : ℕ)))|
          ≤ 2 * ∑' k : {k : ℕ // ¬ k < n}, |a k| * (k.1 : ℝ) ^ (2 * d)
            + (Amp.chain (chebTotal R η n d (some .dirichlet))).bound F ε := by
  have hm : RunsMul (some .dirichlet) := Or.inl rfl
  have hsv : RunsSolve (some .dirichlet) n := hn
  have u1 : R.u < 1 := by linarith [R.u_nonneg]
  have u3 : 3 * R.u < 1 := by linarith [R.u_nonneg]
  obtain ⟨c, hc⟩ := newR2r_of hb hsv
  obtain ⟨q, hq⟩ := newR2r_of (k := none) ho trivial
  obtain ⟨lp, lo⟩ := r2r_lens (T := Rnd R) hm hsv hb
  obtain ⟨lq, -⟩ := r2r_lens (T := Rnd R) (k := none) trivial trivial ho
  have ls : (o.toBase (Rnd R)).lenSpec = n := by obtain ⟨-, rfl⟩ := chebyshev_inv ho; rfl
  have FF := C96_r2r_forward (T := Rnd R) (T' := ℝ) hm hsv hu hη h8 hD hb hc
  have GG := C96_r2r_gradient hm hsv (Or.inl rfl) hu d u1 hd hb hc
  have BB := C96_r2r_backward (T := Rnd R) (T' := ℝ) (k := none) trivial trivial trivial hη u3 hD ho hq
  have hF0 : 0 ≤ F := (abs_nonneg _).trans (hF 0 (by simp))
  have hε : 0 ≤ ε := (abs_nonneg _).trans (hxf 0 (by omega))
  have pt : ∀ j : ℕ, -Real.cos (Real.pi * j / (n - 1 : ℕ)) ∈ Set.Icc (-1 : ℝ) 1 := fun j =>
    ⟨by linarith [Real.cos_le_one (Real.pi * j / (n - 1 : ℕ))], by linarith [Real.neg_one_le_cos (Real.pi * j / (n - 1 : ℕ))]⟩
  obtain ⟨⟨s1, s2, s3⟩, pF, AF⟩ := FF
  obtain ⟨-, pG, AG⟩ := GG
  obtain ⟨⟨t1, t2, t3⟩, pB, AB⟩ := BB
  obtain ⟨xg, vR, gR, wR, hxg, ev, eg, ew, hwl, hw⟩ := C88_dirichlet n c q hc hsv hq d a hs f hf h0 h1
    (List.replicate (c.toBase ℝ).lenSpec 0) (List.replicate (c.toBase ℝ).lenOrth 0) (List.replicate (q.toBase ℝ).lenPhys 0)
    (by simp) (by simp) (by simp)
  have hxj : xg.length = n ∧ ∀ j < n, nth xg j = -Real.cos (Real.pi * j / (n - 1 : ℕ)) := by
    obtain ⟨cc, hcc, rfl⟩ := composite_inv hc
    obtain ⟨lo', -, -, -⟩ := compo_lens hm (by omega) hcc
    have e : (BaseR2r.toBase ℝ (.chebyshevComposite cc)).coords = Cheb.coords ⟨n, n⟩ := by
      show chebNodes cc.n ℝ = chebNodes n ℝ
      rw [lo']
    obtain ⟨y, hy, hl, hj, -⟩ := C01_coords n _ (cheb_new_ok (by omega : 2 ≤ n))
    rw [e, hy] at hxg
    obtain rfl := Res.ok.inj hxg
    exact ⟨hl, hj⟩
  rw [lp] at AF
  rw [lo] at AG
  rw [ls, lq] at AB
  obtain ⟨v, g, w, j1, j2, j3, l, k⟩ := total1 AF AG AB pF pG rfl rfl hF0 hε (xR := xg.map f)
    (by rw [List.length_map]; exact hxj.1) (fun j hj => by
      rw [nth_map _ _ _ (by rw [hxj.1]; exact hj), hxj.2 j hj]; exact hF _ (pt j)) hx (fun j hj => by
      rw [nth_map _ _ _ (by rw [hxj.1]; exact hj), hxj.2 j hj]; exact hxf j hj) h (by rw [h', lo]) (by rw [h'', lq])
    (by rw [List.length_replicate, ← s2]) (by rw [List.length_replicate, ← s3, lo]) (by rw [List.length_replicate, ← t1, lq]) ev eg ew
  refine ⟨v, g, w, j1, j2, j3, l, fun j hj => ?_⟩
  have a1 := k j hj
  have a2 := hw j hj
  rw [hxj.2 j hj] at a2
  rw [Real.norm_eq_abs] at a1
  refine le_trans (abs_sub_le _ (nth wR j) _) ?_
  have e : (Amp.chain (chebTotal R η n d (some .dirichlet))).bound F ε =
    (((forwardAmp R η n (some .dirichlet)).andThen (gradientAmp R n d (some .dirichlet))).andThen
      (backwardAmp R η n none)).bound F ε := rfl
  rw [e]
  linarith

omit [HasDct (Rnd R)] [Powi (Rnd R)] in
/-- C97 on one axis: `fourier_r2c`. -/
theorem C97_fourier_r2c [HasFft (Rnd R) (RndC R)] (n : ℕ) (hn : 1 ≤ n) (b : BaseR2c (Rnd R) (RndC R))
    (hb : fourierR2c n (Rnd R) (RndC R) = ok b) {η : ℝ} (hη : 0 ≤ η) (hD : FftError R n η) (hR : R.Nearest)
    (hN : R.Integers n) (h2 : 2 * R.u < 1) (d : ℕ) (hd : (d : ℝ) * R.u < 1) (hd' : d < 2 ^ 31) (A B : ℕ → ℝ)
    (hs : Summable (fun k : ℕ => (k : ℝ) ^ d * (|A k| + |B k|))) (f : ℝ → ℝ)
    (hf : ∀ x, HasSum (fun k : ℕ => A k * Real.cos (k * x) + B k * Real.sin (k * x)) (f x)) (F ε : ℝ)
    (hF : ∀ x, |f x| ≤ F) (x : List (Rnd R)) (hx : x.length = n)
    (hxf : ∀ j < n, |(nth x j).val - f (2 * Real.pi * j / n)| ≤ ε) (out out' : List (RndC R)) (out'' : List (Rnd R))
    (h : out.length = n / 2 + 1) (h' : out'.length = n / 2 + 1) (h'' : out''.length = n) :
    ∃ v g w, b.toBase.forwardSlice x out = ok v ∧ b.toBase.gradientSlice v out' d = ok g ∧
      b.toBase.backwardSlice g out'' = ok w ∧ w.length = n ∧ ∀ j < n, |(nth w j).val - iteratedDeriv d f (2 * Real.pi * j / n)|
          ≤ 2 * ∑' k : {k : ℕ // n ≤ 2 * k}, (k : ℝ) ^ d * (|A k| + |B k|)
            + (Amp.chain (fourierTotal R η n d)).bound F ε := by
  obtain ⟨c, hc⟩ : ∃ c : BaseR2c ℝ ℂ, fourierR2c n = ok c := ⟨_, rfl⟩
  obtain ⟨FF, BB, -, -, GG⟩ := C96_fourier_r2c hn hη hD hR hN h2 hb hc
  obtain ⟨⟨s1, s2, s3⟩, pF, AF⟩ := FF
  obtain ⟨-, pG, AG⟩ := GG d hd
  obtain ⟨-, pB, AB⟩ := BB
  obtain rfl := r2c_inv hb
  obtain rfl := r2c_inv hc
  have hF0 : 0 ≤ F := (abs_nonneg _).trans (hF 0)
  have hε : 0 ≤ ε := (abs_nonneg _).trans (hxf 0 (by omega))
  obtain ⟨xg, vR, gR, wR, hxg, ev, eg, ew, hwl, -, hw⟩ := C80_fourier_r2c n hn ⟨n, n / 2 + 1⟩ rfl A B d hd' hs f hf
    (List.replicate (n / 2 + 1) 0) (List.replicate (n / 2 + 1) 0) (List.replicate n 0) (by simp [R2c.lenSpec]) (by simp [R2c.lenOrth])
    (by simp [R2c.lenPhys])
  obtain ⟨y, hy, hl, hj⟩ := C23_r2c_coords n hn ⟨n, n / 2 + 1⟩ rfl
  obtain rfl := Res.ok.inj (hy.symm.trans hxg)
  obtain ⟨v, g, w, j1, j2, j3, l, k⟩ := total1 AF AG AB pF pG rfl rfl hF0 hε (xR := y.map f)
    (by rw [List.length_map]; exact hl) (fun j hj' => by
      rw [nth_map _ _ _ (by rw [hl]; exact hj')]; exact hF _) hx (fun j hj' => by
      rw [nth_map _ _ _ (by rw [hl]; exact hj'), hj j hj']; exact hxf j hj') h h' h''
    (by rw [List.length_replicate]; rfl) (by rw [List.length_replicate]; rfl) (by rw [List.length_replicate]; rfl) ev eg ew
  refine ⟨v, g, w, j1, j2, j3, l, fun j hj' => ?_⟩
  have a1 := k j hj'
  have a2 := hw j hj'
  rw [hj j hj'] at a2
  rw [Real.norm_eq_abs] at a1
  refine le_trans (abs_sub_le _ (nth wR j) _) ?_
  have e : (Amp.chain (fourierTotal R η n d)).bound F ε =
    (((fourierForwardAmp η n).andThen (fourierGradientAmp R n d)).andThen (fourierBackwardAmp R η)).bound F ε := rfl
  rw [e]
  linarith

/-! ### Two dimensions -/

/-- C97: let `f` be the sum of a double Chebyshev series with `∑ |a_{kl}| (k+1)^{2 d₀} (l+1)^{2 d₁} < ∞`, bounded by `F`, zero at
the ends of the Dirichlet axes, and `X` its samples on the grid up to `ε`.  In arithmetic with rounding and with cosine transforms
of accuracy `η`, `forward`, `gradient` and `backward` of the space with `chebyshev` bases, serial or parallel, compute the mixed
derivative at the grid points, up to twice the tail of the series plus `err (F + ε) + gain ε`; the derivative and the tail divided by the scales. -/
theorem C97_space2_r2r (k0 k1 : Option CKind) (n0 n1 : ℕ) (b0 b1 o0 o1 : BaseR2r (Rnd R))
    (hb0 : newR2r k0 n0 (Rnd R) = ok b0) (hs0 : RunsSolve k0 n0) (hg0 : RunsGrad k0 n0) (hu0 : SmallUnit R n0 k0)
    (hb1 : newR2r k1 n1 (Rnd R) = ok b1) (hs1 : RunsSolve k1 n1) (hg1 : RunsGrad k1 n1) (hu1 : SmallUnit R n1 k1)
    (ho0 : chebyshev n0 (Rnd R) = ok o0) (ho1 : chebyshev n1 (Rnd R) = ok o1)
    {η : ℝ} (hη : 0 ≤ η) (hD0 : DctError R n0 η) (hD1 : DctError R n1 η) (h8 : 8 * R.u < 1) (d0 d1 : ℕ)
    (hd0 : ((d0 * (n0 / 2 + 6) : ℕ) : ℝ) * R.u < 1) (hd1 : ((d1 * (n1 / 2 + 6) : ℕ) : ℝ) * R.u < 1) (a : ℕ × ℕ → ℝ)
    (hs : Summable (fun P : ℕ × ℕ => |a P| * ((P.1 : ℝ) + 1) ^ (2 * d0) * ((P.2 : ℝ) + 1) ^ (2 * d1)))
    (f : ℝ → ℝ → ℝ) (hf : ∀ x ∈ Set.Icc (-1 : ℝ) 1, ∀ y ∈ Set.Icc (-1 : ℝ) 1, HasSum (fun P : ℕ × ℕ =>
      a P * (Chebyshev.T ℝ P.1).eval x * (Chebyshev.T ℝ P.2).eval y) (f x y))
    (hk0 : k0 = none ∨ k0 = some .dirichlet ∧ ∀ y ∈ Set.Icc (-1 : ℝ) 1, f (-1) y = 0 ∧ f 1 y = 0)
    (hk1 : k1 = none ∨ k1 = some .dirichlet ∧ ∀ x ∈ Set.Icc (-1 : ℝ) 1, f x (-1) = 0 ∧ f x 1 = 0)
    (hP : PowiError R) (scale : Option (Rnd R × Rnd R))
    (hsc : ∀ c, scale = some c → d0 < 2 ^ 31 ∧ d1 < 2 ^ 31 ∧ c.1.val ≠ 0 ∧ c.2.val ≠ 0) (hsu : ((d0 + d1 + 2 : ℕ) : ℝ) * R.u < 1)
    (F ε : ℝ) (hF : ∀ x ∈ Set.Icc (-1 : ℝ) 1, ∀ y ∈ Set.Icc (-1 : ℝ) 1, |f x y| ≤ F) (X : Arr (Rnd R)) (hX : Good X [n0, n1])
    (hXf : ∀ p < n0, ∀ q < n1, |(at_ X [p, q]).val
      - f (-Real.cos (Real.pi * p / (n0 - 1 : ℕ))) (-Real.cos (Real.pi * q / (n1 - 1 : ℕ)))| ≤ ε) :
    let sp : Space2 (Rnd R) (Rnd R) (Rnd R) (Rnd R) (Rnd R) := ⟨b0.toBase (Rnd R), b1.toBase (Rnd R)⟩
    let so : Space2 (Rnd R) (Rnd R) (Rnd R) (Rnd R) (Rnd R) := ⟨o0.toBase (Rnd R), o1.toBase (Rnd R)⟩
    let Close (w : Arr (Rnd R)) := Good w [n0, n1] ∧ ∀ p < n0, ∀ q < n1, |(at_ w [p, q]).val -
      (scale2 d0 d1 (exact2 scale))⁻¹ * iteratedDerivWithin d0 (fun x => iteratedDerivWithin d1 (f x) (Set.Icc (-1) 1) (-Real.cos (Real.pi * q / (n1 - 1 : ℕ))))
        (Set.Icc (-1) 1) (-Real.cos (Real.pi * p / (n0 - 1 : ℕ)))|
      ≤ |(scale2 d0 d1 (exact2 scale))⁻¹| * (2 * ∑' P : {P : ℕ × ℕ // ¬(P.1 < n0 ∧ P.2 < n1)}, |a P| * (P.1.1 : ℝ) ^ (2 * d0) * (P.1.2 : ℝ) ^ (2 * d1))
        + (Amp.chain2 (chebTotal R η n0 d0 k0) (chebTotal R η n1 d1 k1) (scaleAmp2 R d0 d1 scale)).bound F ε
    (∃ v g w, sp.forward X = ok v ∧ sp.gradient v d0 d1 scale = ok g ∧ so.backward g = ok w ∧ Close w) ∧
    ∀ s0 s1 t0 t1 r0 r1, FairSchedule [sp.base0.lenSpec, sp.base1.lenSpec] 0 s0 → FairSchedule [n0, sp.base1.lenSpec] 1 s1 →
      FairSchedule [n0, sp.base1.lenSpec] 0 t0 → FairSchedule [n0, n1] 1 t1 →
      FairSchedule [n0, n1] 0 r0 → FairSchedule [n0, n1] 1 r1 →
      ∃ v g w, sp.forwardPar s0 s1 X = ok v ∧ sp.gradientPar t0 t1 v d0 d1 scale = ok g ∧ so.backwardPar r0 r1 g = ok w ∧
        Close w := by
  intro sp so Close
  have SC1 : exact2 scale ≠ none → d0 < 2 ^ 31 ∧ d1 < 2 ^ 31 := by
    cases scale with
    | none => exact fun h => absurd rfl h
    | some c => exact fun _ => ⟨(hsc c rfl).1, (hsc c rfl).2.1⟩
  have SC2 : scale2 d0 d1 (exact2 scale) ≠ 0 := by
    cases scale with
    | none => exact one_ne_zero
    | some c => exact mul_ne_zero (pow_ne_zero _ (hsc c rfl).2.2.1) (pow_ne_zero _ (hsc c rfl).2.2.2)
  have SC3 : (scaleAmp2 R d0 d1 scale).Nonneg := by
    cases scale with
    | none => exact ⟨zero_le_one, le_rfl⟩
    | some c =>
      exact ⟨abs_nonneg _, mul_nonneg (R.γ_nonneg hsu) (abs_nonneg _)⟩
  have hm : ∀ k : Option CKind, k = none ∨ k = some .dirichlet → RunsMul k := by
    rintro k (rfl | rfl)
    · trivial
    · exact Or.inl rfl
  have hm0 := hm k0 (hk0.imp id (fun h => h.1))
  have hm1 := hm k1 (hk1.imp id (fun h => h.1))
  have h1 : R.u < 1 := by linarith [R.u_nonneg]
  have h3 : 3 * R.u < 1 := by linarith [R.u_nonneg]
  -- exact bases
  obtain ⟨c0, hc0⟩ := newR2r_of hb0 hs0
  obtain ⟨c1, hc1⟩ := newR2r_of hb1 hs1
  obtain ⟨q0, hq0⟩ := newR2r_of (k := none) ho0 trivial
  obtain ⟨q1, hq1⟩ := newR2r_of (k := none) ho1 trivial
  obtain ⟨lp0, lo0⟩ := r2r_lens (T := Rnd R) hm0 hs0 hb0
  obtain ⟨lp1, lo1⟩ := r2r_lens (T := Rnd R) hm1 hs1 hb1
  obtain ⟨lq0, lr0⟩ := r2r_lens (T := Rnd R) (k := none) trivial trivial ho0
  obtain ⟨lq1, lr1⟩ := r2r_lens (T := Rnd R) (k := none) trivial trivial ho1
  have ls0 : (o0.toBase (Rnd R)).lenSpec = n0 := by obtain ⟨-, rfl⟩ := chebyshev_inv ho0; rfl
  have ls1 : (o1.toBase (Rnd R)).lenSpec = n1 := by obtain ⟨-, rfl⟩ := chebyshev_inv ho1; rfl
  have F0 := C96_r2r_forward (T := Rnd R) (T' := ℝ) hm0 hs0 hu0 hη h8 hD0 hb0 hc0
  have F1 := C96_r2r_forward (T := Rnd R) (T' := ℝ) hm1 hs1 hu1 hη h8 hD1 hb1 hc1
  have G0 := C96_r2r_gradient hm0 hs0 hg0 hu0 d0 h1 hd0 hb0 hc0
  have G1 := C96_r2r_gradient hm1 hs1 hg1 hu1 d1 h1 hd1 hb1 hc1
  have B0 := C96_r2r_backward (T := Rnd R) (T' := ℝ) (k := none) trivial trivial trivial hη h3 hD0 ho0 hq0
  have B1 := C96_r2r_backward (T := Rnd R) (T' := ℝ) (k := none) trivial trivial trivial hη h3 hD1 ho1 hq1
  obtain ⟨SF, PF, -⟩ := C96_space2_forward sp ⟨c0.toBase ℝ, c1.toBase ℝ⟩ F0 F1 rfl rfl rfl
  obtain ⟨SG, PG⟩ := C96_space2_gradient_scaled hP divError_real sp ⟨c0.toBase ℝ, c1.toBase ℝ⟩ G0 G1 rfl scale hsc hsu
  obtain ⟨SB, PB, -⟩ := C96_space2_backward so ⟨q0.toBase ℝ, q1.toBase ℝ⟩ B0 B1 rfl rfl rfl
  have sh1 : sp.shapePhysical = [n0, n1] := by show [_, _] = _; rw [← lp0, ← lp1]
  have sh2 : sp.shapeSpectralOrtho = [n0, n1] := by show [_, _] = _; rw [← lo0, ← lo1]
  have sh3 : so.shapeSpectral = [n0, n1] := by show [_, _] = _; rw [← ls0, ← ls1]
  have sh4 : so.shapePhysical = [n0, n1] := by show [_, _] = _; rw [← lq0, ← lq1]
  rw [sh1] at SF PF
  rw [sh2] at SG PG
  rw [sh3, sh4] at SB PB
  have hF0 : 0 ≤ F := (abs_nonneg _).trans (hF 0 (by simp) 0 (by simp))
  have hn0 := (chebyshev_inv ho0).1
  have hn1 := (chebyshev_inv ho1).1
  have hε : 0 ≤ ε := (abs_nonneg _).trans (hXf 0 (by omega) 0 (by omega))
  have pt : ∀ n j : ℕ, -Real.cos (Real.pi * j / (n - 1 : ℕ)) ∈ Set.Icc (-1 : ℝ) 1 := fun n j =>
    ⟨by linarith [Real.cos_le_one (Real.pi * j / (n - 1 : ℕ))], by linarith [Real.neg_one_le_cos (Real.pi * j / (n - 1 : ℕ))]⟩
  obtain ⟨x, y, -, hxy, hex⟩ := C88_space2_r2r k0 k1 n0 n1 c0 c1 q0 q1 hc0 hs0 hg0 hc1 hs1 hg1 hq0 hq1 d0 d1 a hs f hf hk0 hk1 (exact2 scale)
    SC1 SC2
  have hxj : (∀ j < n0, nth x j = -Real.cos (Real.pi * j / (n0 - 1 : ℕ))) ∧
      ∀ j < n1, nth y j = -Real.cos (Real.pi * j / (n1 - 1 : ℕ)) := by
    obtain ⟨-, rfl⟩ := chebyshev_inv hq0
    obtain ⟨-, rfl⟩ := chebyshev_inv hq1
    obtain ⟨x', e0, -, h0, -⟩ := C01_coords n0 _ (cheb_new_ok hn0)
    obtain ⟨y', e1, -, h1, -⟩ := C01_coords n1 _ (cheb_new_ok hn1)
    have : ok [x', y'] = ok [x, y] := by
      refine Eq.trans ?_ hxy
      show _ = (do let x ← Cheb.coords _; let y ← Cheb.coords _; ok [x, y])
      rw [e0, bind_ok, e1, bind_ok]
    have := Res.ok.inj this
    obtain ⟨rfl, rfl⟩ : x' = x ∧ y' = y := by simpa using this
    exact ⟨h0, h1⟩
  set S := sample2 n0 n1 (fun p q => f (-Real.cos (Real.pi * p / (n0 - 1 : ℕ))) (-Real.cos (Real.pi * q / (n1 - 1 : ℕ)))) with hS
  obtain ⟨vR, gR, wR, ev, eg, ew, -, hw⟩ := hex S (sample2_good _) (fun p hp q hq => by
    rw [hS, sample2_at _ hp hq, hxj.1 p hp, hxj.2 q hq])
  have close : ∀ w : Arr (Rnd R), Good w [n0, n1] → (∀ p < n0, ∀ q < n1, ‖(at_ w [p, q]).val - at_ wR [p, q]‖ ≤
      (Amp.chain2 (chebTotal R η n0 d0 k0) (chebTotal R η n1 d1 k1) (scaleAmp2 R d0 d1 scale)).bound F ε) → Close w := by
    intro w gw h
    refine ⟨gw, fun p hp q hq => ?_⟩
    have t1 := h p hp q hq
    have t2 := hw p hp q hq
    rw [hxj.1 p hp, hxj.2 q hq] at t2
    rw [Real.norm_eq_abs] at t1
    exact le_trans (abs_sub_le _ (at_ wR [p, q]) _) (by linarith)
  have hFS : ∀ p < n0, ∀ q < n1, ‖f (-Real.cos (Real.pi * p / (n0 - 1 : ℕ))) (-Real.cos (Real.pi * q / (n1 - 1 : ℕ)))‖ ≤ F :=
    fun p _ q _ => hF _ (pt n0 p) _ (pt n1 q)
  have pF := F1.2.1.andThen F0.2.1
  have pG := (G0.2.1.andThen G1.2.1).andThen SC3
  refine ⟨?_, fun s0 s1 t0 t1 r0 r1 w0 w1 w2 w3 w4 w5 => ?_⟩
  · obtain ⟨v, g, w, j1, j2, j3, gw, hw'⟩ := total3 SF SG SB pF pG rfl rfl hF0 hε hFS hX hXf ev eg ew
    exact ⟨v, g, w, j1, j2, j3, close w gw hw'⟩
  · obtain ⟨v, g, w, j1, j2, j3, gw, hw'⟩ := total3 (PF s0 s1 w0 (lp0.symm ▸ w1)) (PG t0 t1 (lo0.symm ▸ w2)
      (by rw [show sp.base0.lenOrth = n0 from lo0, show sp.base1.lenOrth = n1 from lo1]; exact w3))
      (PB r0 r1 (by rw [show so.base0.lenPhys = n0 from lq0, show so.base1.lenSpec = n1 from ls1]; exact w4)
        (by rw [show so.base0.lenPhys = n0 from lq0, show so.base1.lenPhys = n1 from lq1]; exact w5))
      pF pG rfl rfl hF0 hε hFS hX hXf ev eg ew
    exact ⟨v, g, w, j1, j2, j3, close w gw hw'⟩

/-- C97 with a Fourier axis: `f` is `2π`-periodic in the first variable. -/
theorem C97_space2_r2c_r2r [HasFft (Rnd R) (RndC R)] (n0 : ℕ) (hn0 : 1 ≤ n0) (b0 : BaseR2c (Rnd R) (RndC R))
    (hb0 : fourierR2c n0 (Rnd R) (RndC R) = ok b0) (k1 : Option CKind) (n1 : ℕ) (b1 o1 : BaseR2r (Rnd R))
    (hb1 : newR2r k1 n1 (Rnd R) = ok b1) (hs1 : RunsSolve k1 n1) (hg1 : RunsGrad k1 n1) (hu1 : SmallUnit R n1 k1)
    (ho1 : chebyshev n1 (Rnd R) = ok o1) {η : ℝ} (hη : 0 ≤ η) (hD0 : FftError R n0 η) (hD1 : DctError R n1 η)
    (hR : R.Nearest) (hN : R.Integers n0) (h8 : 8 * R.u < 1) (d0 d1 : ℕ)
    (hd0 : (d0 : ℝ) * R.u < 1) (hd1 : ((d1 * (n1 / 2 + 6) : ℕ) : ℝ) * R.u < 1) (A B : ℕ × ℕ → ℝ)
    (hs : Summable (fun P : ℕ × ℕ => (|A P| + |B P|) * ((P.1 : ℝ) + 1) ^ d0 * ((P.2 : ℝ) + 1) ^ (2 * d1)))
    (f : ℝ → ℝ → ℝ) (hf : ∀ x, ∀ y ∈ Set.Icc (-1 : ℝ) 1, HasSum (fun P : ℕ × ℕ =>
      (A P * Real.cos (P.1 * x) + B P * Real.sin (P.1 * x)) * (Chebyshev.T ℝ P.2).eval y) (f x y))
    (hk1 : k1 = none ∨ k1 = some .dirichlet ∧ ∀ x, f x (-1) = 0 ∧ f x 1 = 0)
    (hP : PowiError R) (scale : Option (Rnd R × Rnd R))
    (hsc : ∀ c, scale = some c → d0 < 2 ^ 31 ∧ d1 < 2 ^ 31 ∧ c.1.val ≠ 0 ∧ c.2.val ≠ 0) (hsu : ((d0 + d1 + 2 : ℕ) : ℝ) * R.u < 1)
    (F ε : ℝ) (hF : ∀ x, ∀ y ∈ Set.Icc (-1 : ℝ) 1, |f x y| ≤ F) (X : Arr (Rnd R)) (hX : Good X [n0, n1])
    (hXf : ∀ p < n0, ∀ q < n1, |(at_ X [p, q]).val
      - f (2 * Real.pi * p / n0) (-Real.cos (Real.pi * q / (n1 - 1 : ℕ)))| ≤ ε) :
    let sp : Space2 (Rnd R) (Rnd R) (RndC R) (RndC R) (Rnd R) := ⟨b0.toBase, b1.toBase (RndC R)⟩
    let so : Space2 (Rnd R) (Rnd R) (RndC R) (RndC R) (Rnd R) := ⟨b0.toBase, o1.toBase (RndC R)⟩
    let Close (w : Arr (Rnd R)) := Good w [n0, n1] ∧ ∀ p < n0, ∀ q < n1, |(at_ w [p, q]).val -
      (scale2 d0 d1 (exact2 scale))⁻¹ * iteratedDeriv d0 (fun x => iteratedDerivWithin d1 (f x) (Set.Icc (-1) 1) (-Real.cos (Real.pi * q / (n1 - 1 : ℕ))))
        (2 * Real.pi * p / n0)|
      ≤ |(scale2 d0 d1 (exact2 scale))⁻¹| * (2 * ∑' P : {P : ℕ × ℕ // ¬(2 * P.1 < n0 ∧ P.2 < n1)}, (|A P| + |B P|) * (P.1.1 : ℝ) ^ d0 * (P.1.2 : ℝ) ^ (2 * d1))
        + (Amp.chain2 (fourierTotal R η n0 d0) (chebTotalC R η n1 d1 k1) (scaleAmp2 R d0 d1 scale)).bound F ε
    (∃ v g w, sp.forward X = ok v ∧ sp.gradient v d0 d1 scale = ok g ∧ so.backward g = ok w ∧ Close w) ∧
    ∀ s0 s1 t0 t1 r0 r1, FairSchedule [n0 / 2 + 1, sp.base1.lenSpec] 0 s0 → FairSchedule [n0, sp.base1.lenSpec] 1 s1 →
      FairSchedule [n0 / 2 + 1, sp.base1.lenSpec] 0 t0 → FairSchedule [n0 / 2 + 1, n1] 1 t1 →
      FairSchedule [n0, n1] 0 r0 → FairSchedule [n0, n1] 1 r1 →
      ∃ v g w, sp.forwardPar s0 s1 X = ok v ∧ sp.gradientPar t0 t1 v d0 d1 scale = ok g ∧ so.backwardPar r0 r1 g = ok w ∧
        Close w := by
  intro sp so Close
  have SC1 : exact2 scale ≠ none → d0 < 2 ^ 31 ∧ d1 < 2 ^ 31 := by
    cases scale with
    | none => exact fun h => absurd rfl h
    | some c => exact fun _ => ⟨(hsc c rfl).1, (hsc c rfl).2.1⟩
  have SC2 : scale2 d0 d1 (exact2 scale) ≠ 0 := by
    cases scale with
    | none => exact one_ne_zero
    | some c => exact mul_ne_zero (pow_ne_zero _ (hsc c rfl).2.2.1) (pow_ne_zero _ (hsc c rfl).2.2.2)
  have SC3 : (scaleAmp2 R d0 d1 scale).Nonneg := by
    cases scale with
    | none => exact ⟨zero_le_one, le_rfl⟩
    | some c =>
      exact ⟨abs_nonneg _, mul_nonneg (R.γ_nonneg hsu) (abs_nonneg _)⟩
  have hm1 : RunsMul k1 := by
    rcases hk1 with rfl | ⟨rfl, -⟩
    · trivial
    · exact Or.inl rfl
  have h1 : R.u < 1 := by linarith [R.u_nonneg]
  have h2 : 2 * R.u < 1 := by linarith [R.u_nonneg]
  have h3 : 3 * R.u < 1 := by linarith [R.u_nonneg]
  obtain ⟨c0, hc0⟩ : ∃ c0 : BaseR2c ℝ ℂ, fourierR2c n0 = ok c0 := ⟨_, rfl⟩
  obtain ⟨c1, hc1⟩ := newR2r_of hb1 hs1
  obtain ⟨q1, hq1⟩ := newR2r_of (k := none) ho1 trivial
  obtain ⟨lp1, lo1⟩ := r2r_lens (T := RndC R) hm1 hs1 hb1
  obtain ⟨lq1, lr1⟩ := r2r_lens (T := RndC R) (k := none) trivial trivial ho1
  have ls1 : (o1.toBase (RndC R)).lenSpec = n1 := by obtain ⟨-, rfl⟩ := chebyshev_inv ho1; rfl
  have l0 : b0.toBase.lenPhys = n0 ∧ b0.toBase.lenSpec = n0 / 2 + 1 ∧ b0.toBase.lenOrth = n0 / 2 + 1 := by
    obtain rfl := r2c_inv hb0
    exact ⟨rfl, rfl, rfl⟩
  obtain ⟨F0, B0, -, -, G0⟩ := C96_fourier_r2c hn0 hη hD0 hR hN h2 hb0 hc0
  have G0 := G0 d0 hd0
  have F1 := C96_r2r_forward (T := RndC R) (T' := ℂ) hm1 hs1 hu1 hη h8 hD1 hb1 hc1
  have G1 := C96_r2r_gradient_complex hm1 hs1 hg1 hu1 d1 h1 hd1 hb1 hc1
  have B1 := C96_r2r_backward (T := RndC R) (T' := ℂ) (k := none) trivial trivial trivial hη h3 hD1 ho1 hq1
  obtain ⟨SF, PF, -⟩ := C96_space2_forward sp ⟨c0.toBase, c1.toBase ℂ⟩ F0 F1 rfl rfl rfl
  obtain ⟨SG, PG⟩ := C96_space2_gradient_scaled hP divError_complex sp ⟨c0.toBase, c1.toBase ℂ⟩ G0 G1 rfl scale hsc hsu
  obtain ⟨SB, PB, -⟩ := C96_space2_backward so ⟨c0.toBase, q1.toBase ℂ⟩ B0 B1 rfl rfl rfl
  have sh1 : sp.shapePhysical = [n0, n1] := by show [_, _] = _; rw [← l0.1, ← lp1]
  have sh2 : sp.shapeSpectralOrtho = [n0 / 2 + 1, n1] := by show [_, _] = _; rw [← l0.2.2, ← lo1]
  have sh3 : so.shapeSpectral = [n0 / 2 + 1, n1] := by show [_, _] = _; rw [← l0.2.1, ← ls1]
  have sh4 : so.shapePhysical = [n0, n1] := by show [_, _] = _; rw [← l0.1, ← lq1]
  rw [sh1] at SF PF
  rw [sh2] at SG PG
  rw [sh3, sh4] at SB PB
  have hF0 : 0 ≤ F := (abs_nonneg _).trans (hF 0 0 (by simp))
  have hn1 := (chebyshev_inv ho1).1
  have hε : 0 ≤ ε := (abs_nonneg _).trans (hXf 0 (by omega) 0 (by omega))
  have pt : ∀ n j : ℕ, -Real.cos (Real.pi * j / (n - 1 : ℕ)) ∈ Set.Icc (-1 : ℝ) 1 := fun n j =>
    ⟨by linarith [Real.cos_le_one (Real.pi * j / (n - 1 : ℕ))], by linarith [Real.neg_one_le_cos (Real.pi * j / (n - 1 : ℕ))]⟩
  obtain ⟨x, y, -, hxy, hex⟩ := C88_space2_r2c_r2r n0 c0.toBase ⟨hn0, c0, hc0, rfl⟩ k1 n1 c1 q1 hc1 hs1 hg1 hq1 d0 d1 A B hs f hf
    hk1 (exact2 scale) SC1 SC2
  have hxj : (∀ j < n0, nth x j = 2 * Real.pi * j / n0) ∧ ∀ j < n1, nth y j = -Real.cos (Real.pi * j / (n1 - 1 : ℕ)) := by
    obtain rfl := r2c_inv hc0
    obtain ⟨-, rfl⟩ := chebyshev_inv hq1
    obtain ⟨x', e0, -, h0⟩ := C23_r2c_coords n0 hn0 ⟨n0, n0 / 2 + 1⟩ rfl
    obtain ⟨y', e1, -, h1, -⟩ := C01_coords n1 _ (cheb_new_ok hn1)
    have : ok [x', y'] = ok [x, y] := by
      refine Eq.trans ?_ hxy
      show _ = (do let x ← R2c.coords _; let y ← Cheb.coords _; ok [x, y])
      rw [e0, bind_ok, e1, bind_ok]
    have := Res.ok.inj this
    obtain ⟨rfl, rfl⟩ : x' = x ∧ y' = y := by simpa using this
    exact ⟨h0, h1⟩
  set S := sample2 n0 n1 (fun p q => f (2 * Real.pi * p / n0) (-Real.cos (Real.pi * q / (n1 - 1 : ℕ)))) with hS
  obtain ⟨vR, gR, wR, ev, eg, ew, -, hw⟩ := hex S (sample2_good _) (fun p hp q hq => by
    rw [hS, sample2_at _ hp hq, hxj.1 p hp, hxj.2 q hq])
  have close : ∀ w : Arr (Rnd R), Good w [n0, n1] → (∀ p < n0, ∀ q < n1, ‖(at_ w [p, q]).val - at_ wR [p, q]‖ ≤
      (Amp.chain2 (fourierTotal R η n0 d0) (chebTotalC R η n1 d1 k1) (scaleAmp2 R d0 d1 scale)).bound F ε) → Close w := by
    intro w gw h
    refine ⟨gw, fun p hp q hq => ?_⟩
    have t1 := h p hp q hq
    have t2 := hw p hp q hq
    rw [hxj.1 p hp, hxj.2 q hq] at t2
    rw [Real.norm_eq_abs] at t1
    exact le_trans (abs_sub_le _ (at_ wR [p, q]) _) (by linarith)
  have hFS : ∀ p < n0, ∀ q < n1, ‖f (2 * Real.pi * p / n0) (-Real.cos (Real.pi * q / (n1 - 1 : ℕ)))‖ ≤ F :=
    fun p _ q _ => hF _ _ (pt n1 q)
  have pF := F1.2.1.andThen F0.2.1
  have pG := (G0.2.1.andThen G1.2.1).andThen SC3
  refine ⟨?_, fun s0 s1 t0 t1 r0 r1 w0 w1 w2 w3 w4 w5 => ?_⟩
  · obtain ⟨v, g, w, j1, j2, j3, gw, hw'⟩ := total3 SF SG SB pF pG rfl rfl hF0 hε hFS hX hXf ev eg ew
    exact ⟨v, g, w, j1, j2, j3, close w gw hw'⟩
  · obtain ⟨v, g, w, j1, j2, j3, gw, hw'⟩ := total3 (PF s0 s1
      (by rw [show sp.base0.lenSpec = _ from l0.2.1]; exact w0) (by rw [show sp.base0.lenPhys = n0 from l0.1]; exact w1))
      (PG t0 t1 (by rw [show sp.base0.lenOrth = _ from l0.2.2]; exact w2)
        (by rw [show sp.base0.lenOrth = _ from l0.2.2, show sp.base1.lenOrth = n1 from lo1]; exact w3))
      (PB r0 r1 (by rw [show so.base0.lenPhys = n0 from l0.1, show so.base1.lenSpec = n1 from ls1]; exact w4)
        (by rw [show so.base0.lenPhys = n0 from l0.1, show so.base1.lenPhys = n1 from lq1]; exact w5))
      pF pG rfl rfl hF0 hε hFS hX hXf ev eg ew
    exact ⟨v, g, w, j1, j2, j3, close w gw hw'⟩

end

/-! ### The hypotheses are met

The mixed derivative of `cos x (1 - y²)` from its samples on `fourier_r2c(32)` × `cheb_dirichlet(17)`, rounded to 53 binary
digits, with correctly rounded transforms, scaled by 2 and 4; of `x (1 - y²)` on `chebyshev(9)` × `cheb_dirichlet(17)`; the derivatives of `1 - y²` on
`cheb_dirichlet(17)` and of `cos x` on `fourier_r2c(32)`. -/

section
attribute [local instance] roundedDct roundedFft exactLibm

noncomputable local instance : Powi (Rnd (binary 52)) := mulPowi

private theorem mulPowi_error : PowiError (binary 52) := C96_powi_by_multiplication (by rw [u52']; norm_num)

private noncomputable def par (k : ℕ) : ℝ := if k = 0 then 1 / 2 else if k = 2 then -(1 / 2) else 0

private theorem par_zero {k : ℕ} (h0 : k ≠ 0) (h2 : k ≠ 2) : par k = 0 := by simp [par, h0, h2]

private noncomputable def cospar (P : ℕ × ℕ) : ℝ := if P.1 = 1 then par P.2 else 0

private theorem cospar_zero {P : ℕ × ℕ} (h : P ∉ ({(1, 0), (1, 2)} : Finset (ℕ × ℕ))) : cospar P = 0 := by
  unfold cospar
  split_ifs with h1
  · obtain ⟨p, q⟩ := P
    obtain rfl : p = 1 := h1
    exact par_zero (fun h0 => h (by simp_all)) (fun h0 => h (by simp_all))
  · rfl

private theorem hasSum_cospar (x y : ℝ) : HasSum (fun P : ℕ × ℕ =>
    (cospar P * Real.cos (P.1 * x) + 0 * Real.sin (P.1 * x)) * (Chebyshev.T ℝ P.2).eval y) (Real.cos x * (1 - y ^ 2)) := by
  have h : HasSum (fun P : ℕ × ℕ =>
      (cospar P * Real.cos (P.1 * x) + 0 * Real.sin (P.1 * x)) * (Chebyshev.T ℝ P.2).eval y)
      (∑ P ∈ {(1, 0), (1, 2)}, (cospar P * Real.cos (P.1 * x) + 0 * Real.sin (P.1 * x)) * (Chebyshev.T ℝ P.2).eval y) :=
    hasSum_sum_of_ne_finset_zero (fun P hP => by rw [cospar_zero hP]; simp)
  convert h using 1
  rw [Finset.sum_pair (by simp)]
  simp [Chebyshev.T_two, cospar, par]
  ring

example : ∃ (b0 : BaseR2c (Rnd (binary 52)) (RndC (binary 52))) (b1 o1 : BaseR2r (Rnd (binary 52))),
    fourierR2c 32 (Rnd (binary 52)) (RndC (binary 52)) = ok b0 ∧ newR2r (some .dirichlet) 17 (Rnd (binary 52)) = ok b1 ∧
    chebyshev 17 (Rnd (binary 52)) = ok o1 ∧
    (let sp : Space2 (Rnd (binary 52)) (Rnd (binary 52)) (RndC (binary 52)) (RndC (binary 52)) (Rnd (binary 52)) :=
        ⟨b0.toBase, b1.toBase (RndC (binary 52))⟩
     let so : Space2 (Rnd (binary 52)) (Rnd (binary 52)) (RndC (binary 52)) (RndC (binary 52)) (Rnd (binary 52)) :=
        ⟨b0.toBase, o1.toBase (RndC (binary 52))⟩
     ∀ X : Arr (Rnd (binary 52)), Good X [32, 17] →
      (∀ p < 32, ∀ q < 17, at_ X [p, q] = ⟨(binary 52).fl (Real.cos (2 * Real.pi * p / (32 : ℕ))
        * (1 - (-Real.cos (Real.pi * q / (17 - 1 : ℕ))) ^ 2))⟩) →
      ∃ v g w, sp.forward X = ok v ∧ sp.gradient v 1 1 (some (⟨2⟩, ⟨4⟩)) = ok g ∧ so.backward g = ok w ∧
        ∀ p < 32, ∀ q < 17, |(at_ w [p, q]).val - 1 / 8 * iteratedDeriv 1
          (fun x => iteratedDerivWithin 1 (fun y : ℝ => Real.cos x * (1 - y ^ 2)) (Set.Icc (-1) 1)
            (-Real.cos (Real.pi * q / (17 - 1 : ℕ)))) (2 * Real.pi * p / (32 : ℕ))| ≤ 1 / 10 ^ 5) := by
  have hN : (binary 52).Integers 32 := fun k hk => binary_integers 52 k (by omega)
  obtain ⟨c, hc⟩ := C72_new (R := binary 52) (by rw [u52']; norm_num) .dirichlet (.inl rfl) (n := 17) (by omega)
  have hb1 : newR2r (some .dirichlet) 17 (Rnd (binary 52)) = ok (.chebyshevComposite c) := by
    show chebComposite .dirichlet 17 _ = _
    unfold chebComposite
    rw [hc]; rfl
  refine ⟨_, _, _, rfl, hb1, rfl, ?_⟩
  intro sp so X hX hXv
  have hF : ∀ x : ℝ, ∀ y ∈ Set.Icc (-1 : ℝ) 1, |Real.cos x * (1 - y ^ 2)| ≤ 1 := fun x y hy => by
    rw [abs_mul]
    have h1 := Real.abs_cos_le_one x
    have h2 : |1 - y ^ 2| ≤ 1 := abs_le.mpr ⟨by nlinarith [hy.1, hy.2], by nlinarith [hy.1, hy.2]⟩
    nlinarith [abs_nonneg (Real.cos x), abs_nonneg (1 - y ^ 2)]
  have pt : ∀ q : ℕ, -Real.cos (Real.pi * q / (17 - 1 : ℕ)) ∈ Set.Icc (-1 : ℝ) 1 := fun q =>
    ⟨by linarith [Real.cos_le_one (Real.pi * q / (17 - 1 : ℕ))], by linarith [Real.neg_one_le_cos (Real.pi * q / (17 - 1 : ℕ))]⟩
  obtain ⟨⟨v, g, w, j1, j2, j3, -, hw⟩, -⟩ := C97_space2_r2c_r2r (R := binary 52) 32 (by norm_num) _ rfl (some .dirichlet) 17 _ _ hb1
    (by show 5 ≤ 17; norm_num) (Or.inl rfl) ⟨binary_nearest 52, by rw [u52']; norm_num, by rw [gam52']; norm_num⟩ rfl
    (η := (binary 52).u) (binary 52).u_nonneg (roundedFft_error 32) (rounded_error (by norm_num)) (binary_nearest 52) hN
    (by rw [u52']; norm_num) 1 1 (by rw [u52']; norm_num) (by rw [u52']; norm_num) cospar (fun _ => 0)
    (summable_of_ne_finset_zero (s := {(1, 0), (1, 2)}) (fun P hP => by rw [cospar_zero hP]; simp))
    (fun x y => Real.cos x * (1 - y ^ 2)) (fun x y _ => hasSum_cospar x y) (Or.inr ⟨rfl, fun x => by norm_num⟩) mulPowi_error
    (some (⟨2⟩, ⟨4⟩)) (by rintro c ⟨⟩; exact ⟨by norm_num, by norm_num, two_ne_zero, four_ne_zero⟩) (by rw [u52']; norm_num) 1 (binary 52).u hF X hX
    (fun p hp q hq => by
      rw [hXv p hp q hq]
      refine ((binary 52).err _).trans ?_
      have := hF (2 * Real.pi * p / (32 : ℕ)) _ (pt q)
      nlinarith [(binary 52).u_nonneg])
  have hσ : (scale2 1 1 (exact2 (R := binary 52) (some (⟨2⟩, ⟨4⟩))))⁻¹ = 1 / 8 := by
    show ((2 : ℝ) ^ 1 * 4 ^ 1)⁻¹ = _
    norm_num
  rw [hσ] at hw
  refine ⟨v, g, w, j1, j2, j3, fun p hp q hq => (hw p hp q hq).trans ?_⟩
  have ht : ∑' P : {P : ℕ × ℕ // ¬(2 * P.1 < 32 ∧ P.2 < 17)}, (|cospar P| + |(0:ℝ)|) * (P.1.1 : ℝ) ^ 1 * (P.1.2 : ℝ) ^ (2 * 1) = 0 := by
    refine (tsum_congr (fun P => ?_)).trans tsum_zero
    rw [cospar_zero (fun h => P.2 ?_)]
    · simp
    · rcases Finset.mem_insert.mp h with h | h
      · rw [h]; norm_num
      · rw [Finset.mem_singleton.mp h]; norm_num
  rw [ht]
  have h2 : √2 ≤ 3 / 2 := by rw [Real.sqrt_le_left (by norm_num)]; norm_num
  have h2' : 0 ≤ √2 := Real.sqrt_nonneg 2
  simp only [Amp.chain2, fourierTotal, chebTotalC, scaleAmp2, Amp.bound, Amp.cplx, Amp.andThen, forwardAmp, fromAmp, toAmp, gradientAmp, backwardAmp,
    fourierForwardAmp, fourierBackwardAmp, fourierGradientAmp, gam52', u52']
  norm_num
  nlinarith

private theorem hasSum_xpar (x y : ℝ) : HasSum (fun P : ℕ × ℕ =>
    cospar P * (Chebyshev.T ℝ P.1).eval x * (Chebyshev.T ℝ P.2).eval y) (x * (1 - y ^ 2)) := by
  have h : HasSum (fun P : ℕ × ℕ => cospar P * (Chebyshev.T ℝ P.1).eval x * (Chebyshev.T ℝ P.2).eval y)
      (∑ P ∈ {(1, 0), (1, 2)}, cospar P * (Chebyshev.T ℝ P.1).eval x * (Chebyshev.T ℝ P.2).eval y) :=
    hasSum_sum_of_ne_finset_zero (fun P hP => by rw [cospar_zero hP]; simp)
  convert h using 1
  rw [Finset.sum_pair (by simp)]
  simp [Chebyshev.T_two, cospar, par]
  ring

private theorem hasSum_par (y : ℝ) : HasSum (fun k : ℕ => par k * (Chebyshev.T ℝ k).eval y) (1 - y ^ 2) := by
  have h : HasSum (fun k : ℕ => par k * (Chebyshev.T ℝ k).eval y) (∑ k ∈ {0, 2}, par k * (Chebyshev.T ℝ k).eval y) :=
    hasSum_sum_of_ne_finset_zero (fun k hk => by
      rw [par_zero (fun h => hk (by simp [h])) (fun h => hk (by simp [h])), zero_mul])
  convert h using 1
  rw [Finset.sum_pair (by norm_num)]
  simp [Chebyshev.T_two, par]
  ring

private theorem one_sub_sq {y : ℝ} (hy : y ∈ Set.Icc (-1 : ℝ) 1) : |1 - y ^ 2| ≤ 1 :=
  abs_le.mpr ⟨by nlinarith [hy.1, hy.2], by nlinarith [hy.1, hy.2]⟩

private theorem grid_mem (n q : ℕ) : -Real.cos (Real.pi * q / (n - 1 : ℕ)) ∈ Set.Icc (-1 : ℝ) 1 :=
  ⟨by linarith [Real.cos_le_one (Real.pi * q / (n - 1 : ℕ))], by linarith [Real.neg_one_le_cos (Real.pi * q / (n - 1 : ℕ))]⟩

private theorem dir17 : ∃ c : Compo (Rnd (binary 52)), newR2r (some .dirichlet) 17 (Rnd (binary 52)) = ok (.chebyshevComposite c) := by
  obtain ⟨c, hc⟩ := C72_new (R := binary 52) (by rw [u52']; norm_num) .dirichlet (.inl rfl) (n := 17) (by omega)
  refine ⟨c, ?_⟩
  show chebComposite .dirichlet 17 _ = _
  unfold chebComposite
  rw [hc]; rfl

private theorem fl_near (x : ℝ) (h : |x| ≤ 1) : |(binary 52).fl x - x| ≤ (binary 52).u := by
  refine ((binary 52).err x).trans ?_
  nlinarith [(binary 52).u_nonneg]

example : ∃ b0 b1 o0 o1 : BaseR2r (Rnd (binary 52)), newR2r none 9 (Rnd (binary 52)) = ok b0 ∧
    newR2r (some .dirichlet) 17 (Rnd (binary 52)) = ok b1 ∧ chebyshev 9 (Rnd (binary 52)) = ok o0 ∧
    chebyshev 17 (Rnd (binary 52)) = ok o1 ∧
    (let sp : Space2 (Rnd (binary 52)) (Rnd (binary 52)) (Rnd (binary 52)) (Rnd (binary 52)) (Rnd (binary 52)) :=
        ⟨b0.toBase _, b1.toBase _⟩
     let so : Space2 (Rnd (binary 52)) (Rnd (binary 52)) (Rnd (binary 52)) (Rnd (binary 52)) (Rnd (binary 52)) :=
        ⟨o0.toBase _, o1.toBase _⟩
     ∀ X : Arr (Rnd (binary 52)), Good X [9, 17] →
      (∀ p < 9, ∀ q < 17, at_ X [p, q] = ⟨(binary 52).fl (-Real.cos (Real.pi * p / (9 - 1 : ℕ))
        * (1 - (-Real.cos (Real.pi * q / (17 - 1 : ℕ))) ^ 2))⟩) →
      ∃ v g w, sp.forward X = ok v ∧ sp.gradient v 1 1 none = ok g ∧ so.backward g = ok w ∧
        ∀ p < 9, ∀ q < 17, |(at_ w [p, q]).val - iteratedDerivWithin 1
          (fun x => iteratedDerivWithin 1 (fun y : ℝ => x * (1 - y ^ 2)) (Set.Icc (-1) 1)
            (-Real.cos (Real.pi * q / (17 - 1 : ℕ)))) (Set.Icc (-1) 1) (-Real.cos (Real.pi * p / (9 - 1 : ℕ)))| ≤ 1 / 10 ^ 4) := by
  obtain ⟨c, hb1⟩ := dir17
  refine ⟨_, _, _, _, rfl, hb1, rfl, rfl, ?_⟩
  intro sp so X hX hXv
  have hF : ∀ x ∈ Set.Icc (-1 : ℝ) 1, ∀ y ∈ Set.Icc (-1 : ℝ) 1, |x * (1 - y ^ 2)| ≤ 1 := fun x hx y hy => by
    rw [abs_mul]
    have h1 : |x| ≤ 1 := abs_le.mpr hx
    have h2 := one_sub_sq hy
    nlinarith [abs_nonneg x, abs_nonneg (1 - y ^ 2)]
  obtain ⟨⟨v, g, w, j1, j2, j3, -, hw⟩, -⟩ := C97_space2_r2r (R := binary 52) none (some .dirichlet) 9 17 _ _ _ _ rfl trivial
    (by show 3 ≤ 9; norm_num) trivial hb1
    (by show 5 ≤ 17; norm_num) (Or.inl rfl) ⟨binary_nearest 52, by rw [u52']; norm_num, by rw [gam52']; norm_num⟩ rfl rfl
    (η := (binary 52).u) (binary 52).u_nonneg (rounded_error (by norm_num)) (rounded_error (by norm_num))
    (by rw [u52']; norm_num) 1 1 (by rw [u52']; norm_num) (by rw [u52']; norm_num) cospar
    (summable_of_ne_finset_zero (s := {(1, 0), (1, 2)}) (fun P hP => by rw [cospar_zero hP]; simp))
    (fun x y => x * (1 - y ^ 2)) (fun x _ y _ => hasSum_xpar x y) (Or.inl rfl) (Or.inr ⟨rfl, fun x _ => by norm_num⟩) mulPowi_error
    none (by rintro c ⟨⟩) (by rw [u52']; norm_num) 1 (binary 52).u
    hF X hX (fun p hp q hq => by
      rw [hXv p hp q hq]
      exact fl_near _ (hF _ (grid_mem 9 p) _ (grid_mem 17 q)))
  have hσ : (scale2 1 1 (exact2 (R := binary 52) none))⁻¹ = 1 := inv_one
  rw [hσ] at hw
  refine ⟨v, g, w, j1, j2, j3, fun p hp q hq => le_trans (by simpa only [one_mul] using hw p hp q hq) ?_⟩
  have ht : ∑' P : {P : ℕ × ℕ // ¬(P.1 < 9 ∧ P.2 < 17)}, |cospar P| * (P.1.1 : ℝ) ^ (2 * 1) * (P.1.2 : ℝ) ^ (2 * 1) = 0 := by
    refine (tsum_congr (fun P => ?_)).trans tsum_zero
    rw [cospar_zero (fun h => P.2 ?_)]
    · simp
    · rcases Finset.mem_insert.mp h with h | h
      · rw [h]; norm_num
      · rw [Finset.mem_singleton.mp h]; norm_num
  rw [ht]
  simp only [Amp.chain2, chebTotal, scaleAmp2, scale2, exact2, Option.map, Amp.bound, Amp.andThen, forwardAmp, fromAmp, toAmp, gradientAmp, backwardAmp, gam52', u52']
  norm_num

example : ∃ b o : BaseR2r (Rnd (binary 52)), newR2r (some .dirichlet) 17 (Rnd (binary 52)) = ok b ∧
    chebyshev 17 (Rnd (binary 52)) = ok o ∧ ∀ x out out' out'' : List (Rnd (binary 52)), x.length = 17 →
      (∀ j < 17, nth x j = ⟨(binary 52).fl (1 - (-Real.cos (Real.pi * j / (17 - 1 : ℕ))) ^ 2)⟩) →
      out.length = (b.toBase (Rnd (binary 52))).lenSpec → out'.length = (b.toBase (Rnd (binary 52))).lenOrth →
      out''.length = (o.toBase (Rnd (binary 52))).lenPhys →
      ∃ v g w, (b.toBase (Rnd (binary 52))).forwardSlice x out = ok v ∧
        (b.toBase (Rnd (binary 52))).gradientSlice v out' 1 = ok g ∧ (o.toBase (Rnd (binary 52))).backwardSlice g out'' = ok w ∧
        ∀ j < 17, |(nth w j).val - iteratedDerivWithin 1 (fun y : ℝ => 1 - y ^ 2) (Set.Icc (-1) 1)
          (-Real.cos (Real.pi * j / (17 - 1 : ℕ)))| ≤ 2 / 10 ^ 8 := by
  obtain ⟨c, hb⟩ := dir17
  refine ⟨_, _, hb, rfl, fun x out out' out'' hx hxv h h' h'' => ?_⟩
  obtain ⟨v, g, w, j1, j2, j3, -, hw⟩ := C97_dirichlet (R := binary 52) 17 (by norm_num) _ _ hb
    ⟨binary_nearest 52, by rw [u52']; norm_num, by rw [gam52']; norm_num⟩ rfl (η := (binary 52).u) (binary 52).u_nonneg
    (rounded_error (by norm_num)) (by rw [u52']; norm_num) 1 (by rw [u52']; norm_num) par
    (summable_of_ne_finset_zero (s := {0, 2}) (fun k hk => by
      rw [par_zero (fun h => hk (by simp [h])) (fun h => hk (by simp [h]))]; simp))
    (fun y => 1 - y ^ 2) (fun y _ => hasSum_par y) (by norm_num) (by norm_num) 1 (binary 52).u (fun y hy => one_sub_sq hy) x hx
    (fun j hj => by rw [hxv j hj]; exact fl_near _ (one_sub_sq (grid_mem 17 j))) out out' out'' h h' h''
  refine ⟨v, g, w, j1, j2, j3, fun j hj => (hw j hj).trans ?_⟩
  have ht : ∑' k : {k : ℕ // ¬ k < 17}, |par k| * (k.1 : ℝ) ^ (2 * 1) = 0 := by
    refine (tsum_congr (fun k => ?_)).trans tsum_zero
    rw [par_zero (fun h => k.2 (by omega)) (fun h => k.2 (by omega))]; simp
  rw [ht]
  simp only [Amp.chain, chebTotal, Amp.bound, Amp.andThen, forwardAmp, fromAmp, toAmp, gradientAmp, backwardAmp, gam52', u52']
  norm_num

example : ∃ b : BaseR2c (Rnd (binary 52)) (RndC (binary 52)), fourierR2c 32 (Rnd (binary 52)) (RndC (binary 52)) = ok b ∧
    ∀ (x : List (Rnd (binary 52))) (out out' : List (RndC (binary 52))) (out'' : List (Rnd (binary 52))), x.length = 32 →
      (∀ j < 32, nth x j = ⟨(binary 52).fl (Real.cos (2 * Real.pi * j / (32 : ℕ)))⟩) →
      out.length = 17 → out'.length = 17 → out''.length = 32 →
      ∃ v g w, b.toBase.forwardSlice x out = ok v ∧ b.toBase.gradientSlice v out' 1 = ok g ∧ b.toBase.backwardSlice g out'' = ok w ∧
        ∀ j < 32, |(nth w j).val - iteratedDeriv 1 Real.cos (2 * Real.pi * j / (32 : ℕ))| ≤ 1 / 10 ^ 12 := by
  have hN : (binary 52).Integers 32 := fun k hk => binary_integers 52 k (by omega)
  refine ⟨_, rfl, fun x out out' out'' hx hxv h h' h'' => ?_⟩
  obtain ⟨v, g, w, j1, j2, j3, -, hw⟩ := C97_fourier_r2c (R := binary 52) 32 (by norm_num) _ rfl (η := (binary 52).u)
    (binary 52).u_nonneg (roundedFft_error 32) (binary_nearest 52) hN (by rw [u52']; norm_num) 1 (by rw [u52']; norm_num) (by norm_num)
    (fun k => if k = 1 then 1 else 0) (fun _ => 0)
    (summable_of_ne_finset_zero (s := {1}) (fun k hk => by
      rw [if_neg (fun h => hk (by simp [h]))]; simp))
    Real.cos (fun x => by
      have := hasSum_ite_eq (1 : ℕ) (Real.cos x)
      convert this using 2 with k
      by_cases h : k = 1
      · simp [h]
      · simp [h]) 1 (binary 52).u Real.abs_cos_le_one x hx
    (fun j hj => by rw [hxv j hj]; exact fl_near _ (Real.abs_cos_le_one _)) out out' out'' h h' h''
  refine ⟨v, g, w, j1, j2, j3, fun j hj => (hw j hj).trans ?_⟩
  have ht : ∑' k : {k : ℕ // 32 ≤ 2 * k}, (k : ℝ) ^ 1 * (|if k.1 = 1 then (1:ℝ) else 0| + |(0:ℝ)|) = 0 := by
    refine (tsum_congr (fun k => ?_)).trans tsum_zero
    rw [if_neg (fun h => by have := k.2; omega)]; simp
  rw [ht]
  simp only [Amp.chain, fourierTotal, Amp.bound, Amp.andThen, fourierForwardAmp, fourierBackwardAmp, fourierGradientAmp, gam52', u52']
  norm_num

end
end Verif.Props
