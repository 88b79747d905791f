/-
Property C98: truncation and rounding together for the composite bases.
-/
import Verif.Props.Boundary
import Verif.Props.Total2

namespace Verif.Props
open Verif Res Spec Finset Polynomial

section
variable {R : Rounding} [HasDct (Rnd R)] [Libm (Rnd R)] [Powi (Rnd R)]

/-- C98, total error: the derivative of a function that satisfies the boundary conditions of the base
(Dirichlet, Neumann or mixed), computed in rounded arithmetic from inexact samples. -/
theorem C98_total (κ : CKind) (hm : RunsMul (some κ)) (n : ℕ) (hsv : κ.minSolve ≤ n) (b o : BaseR2r (Rnd R)) (hb : newR2r (some κ) n (Rnd R) = ok b)
    (hu : SmallUnit R n (some κ)) (ho : chebyshev n (Rnd R) = ok o) {η : ℝ} (hη : 0 ≤ η) (hD : DctError R n η)
    (h8 : 8 * R.u < 1) (d : ℕ) (hd : ((d * (n / 2 + 6) : ℕ) : ℝ) * R.u < 1) (a : ℕ → ℝ)
    (hs : Summable (fun k : ℕ => |a k| * (k : ℝ) ^ (2 * max d (conditionOrder κ)))) (f : ℝ → ℝ)
    (hf : ∀ x ∈ Set.Icc (-1 : ℝ) 1, HasSum (fun k : ℕ => a k * (Chebyshev.T ℝ k).eval x) (f x))
    (hbc : FunctionBC κ f) (F ε : ℝ) (hF : ∀ x ∈ Set.Icc (-1 : ℝ) 1, |f x| ≤ F) (x : List (Rnd R))
    (hx : x.length = n) (hxf : ∀ j < n, |(nth x j).val - f (-Real.cos (Real.pi * j / (n - 1 : ℕ)))| ≤ ε)
    (out out' out'' : List (Rnd R)) (h : out.length = (b.toBase (Rnd R)).lenSpec)
    (h' : out'.length = (b.toBase (Rnd R)).lenOrth) (h'' : out''.length = (o.toBase (Rnd R)).lenPhys) :
    ∃ v g w, (b.toBase (Rnd R)).forwardSlice x out = ok v ∧ (b.toBase (Rnd R)).gradientSlice v out' d = ok g ∧
      (o.toBase (Rnd R)).backwardSlice g out'' = ok w ∧ w.length = n ∧ ∀ j < n, |(nth w j).val -
        iteratedDerivWithin d f (Set.Icc (-1) 1) (-Real.cos (Real.pi * j / (n - 1 : ℕ)))|
          ≤ 2 * chebTail a n d + 6 * √n * (n : ℝ) ^ (2 * d) * chebTail a n (conditionOrder κ)
            + (Amp.chain (chebTotal R η n d (some κ))).bound F ε := by
  have hn : 5 ≤ n := le_trans (by cases κ <;> decide) hsv
  have u1 : R.u < 1 := by linarith [R.u_nonneg]
  have u3 : 3 * R.u < 1 := by linarith [R.u_nonneg]
  obtain ⟨c, hc⟩ := newR2r_of hb hsv
  obtain ⟨q, hq⟩ := newR2r_of (k := none) ho trivial
  obtain ⟨lp, lo⟩ := r2r_lens (T := Rnd R) hm hsv hb
  obtain ⟨lq, -⟩ := r2r_lens (T := Rnd R) (k := none) trivial trivial ho
  have ls : (o.toBase (Rnd R)).lenSpec = n := by obtain ⟨-, rfl⟩ := chebyshev_inv ho; rfl
  have FF := C96_r2r_forward (T := Rnd R) (T' := ℝ) hm hsv hu hη h8 hD hb hc
  have GG := C96_r2r_gradient hm hsv hm hu d u1 hd hb hc
  have BB := C96_r2r_backward (T := Rnd R) (T' := ℝ) (k := none) trivial trivial trivial hη u3 hD ho hq
  have hF0 : 0 ≤ F := (abs_nonneg _).trans (hF 0 (by simp))
  have hε : 0 ≤ ε := (abs_nonneg _).trans (hxf 0 (by omega))
  have pt : ∀ j : ℕ, -Real.cos (Real.pi * j / (n - 1 : ℕ)) ∈ Set.Icc (-1 : ℝ) 1 := fun j =>
    ⟨by linarith [Real.cos_le_one (Real.pi * j / (n - 1 : ℕ))], by linarith [Real.neg_one_le_cos (Real.pi * j / (n - 1 : ℕ))]⟩
  obtain ⟨⟨s1, s2, s3⟩, pF, AF⟩ := FF
  obtain ⟨-, pG, AG⟩ := GG
  obtain ⟨⟨t1, t2, t3⟩, pB, AB⟩ := BB
  obtain ⟨cc, hcc, rfl⟩ := composite_inv hc
  obtain ⟨hn2, rfl⟩ := chebyshev_inv hq
  obtain ⟨lo', -, -, lo2⟩ := compo_lens hm (by omega) hcc
  obtain ⟨xg, vR, gR, wR, hxg, ev, eg, ew, hwl, -, hw⟩ := C98_derivative κ hm n cc ⟨n, n⟩ hcc hsv (cheb_new_ok hn2) d a hs
    f hf hbc (List.replicate cc.lenSpec 0) (List.replicate cc.lenOrth 0) (List.replicate n 0)
    (by simp) (by simp) (by simp [Cheb.lenPhys])
  have hxj : xg.length = n ∧ ∀ j < n, nth xg j = -Real.cos (Real.pi * j / (n - 1 : ℕ)) := by
    have e : cc.coords = Cheb.coords ⟨n, n⟩ := by
      show chebNodes cc.n ℝ = chebNodes n ℝ
      rw [lo']
    obtain ⟨y, hy, hl, hj, -⟩ := C01_coords n _ (cheb_new_ok hn2)
    rw [e, hy] at hxg
    obtain rfl := Res.ok.inj hxg
    exact ⟨hl, hj⟩
  rw [lp] at AF
  rw [lo] at AG
  rw [ls, lq] at AB
  obtain ⟨v, g, w, j1, j2, j3, l, k⟩ := total1 AF AG AB pF pG rfl rfl hF0 hε (xR := xg.map f)
    (by rw [List.length_map]; exact hxj.1) (fun j hj => by
      rw [nth_map _ _ _ (by rw [hxj.1]; exact hj), hxj.2 j hj]; exact hF _ (pt j)) hx (fun j hj => by
      rw [nth_map _ _ _ (by rw [hxj.1]; exact hj), hxj.2 j hj]; exact hxf j hj) h (by rw [h', lo]) (by rw [h'', lq])
    (by rw [List.length_replicate, s2]; rfl) (by rw [List.length_replicate, lo2]) (by rw [List.length_replicate]) ev eg ew
  refine ⟨v, g, w, j1, j2, j3, l, fun j hj => ?_⟩
  have a1 := k j hj
  have a2 := hw j hj
  rw [hxj.2 j hj] at a2
  rw [Real.norm_eq_abs] at a1
  refine le_trans (abs_sub_le _ (nth wR j) _) ?_
  have e : (Amp.chain (chebTotal R η n d (some κ))).bound F ε =
    (((forwardAmp R η n (some κ)).andThen (gradientAmp R n d (some κ))).andThen
      (backwardAmp R η n none)).bound F ε := rfl
  rw [e]
  linarith

end

/-! ### The hypotheses are met

The derivative of `(y³ - 3 y) / 2`, which satisfies the Neumann conditions, on `cheb_neumann(17)`, with samples rounded to 53
binary digits and correctly rounded transforms. -/

section
attribute [local instance] roundedDct exactLibm

noncomputable local instance : Powi (Rnd (binary 52)) := mulPowi

private noncomputable def cub (k : ℕ) : ℝ := if k = 1 then -(9 / 8) else if k = 3 then 1 / 8 else 0

private theorem cub_zero {k : ℕ} (h : k ∉ ({1, 3} : Finset ℕ)) : cub k = 0 := by
  simp only [Finset.mem_insert, Finset.mem_singleton, not_or] at h
  simp [cub, h.1, h.2]

private theorem cub_le {y : ℝ} (hy : y ∈ Set.Icc (-1 : ℝ) 1) : |(y ^ 3 - 3 * y) / 2| ≤ 1 := by
  obtain ⟨h1, h2⟩ := hy
  refine abs_le.mpr ⟨?_, ?_⟩
  · nlinarith [mul_nonneg (sq_nonneg (y - 1)) (by linarith : (0:ℝ) ≤ y + 2)]
  · nlinarith [mul_nonneg (sq_nonneg (y + 1)) (by linarith : (0:ℝ) ≤ 2 - y)]

private theorem hasSum_cub (y : ℝ) :
    HasSum (fun k : ℕ => cub k * (Chebyshev.T ℝ k).eval y) ((y ^ 3 - 3 * y) / 2) := by
  have h : HasSum (fun k : ℕ => cub k * (Chebyshev.T ℝ k).eval y)
      (∑ k ∈ {1, 3}, cub k * (Chebyshev.T ℝ (k : ℕ)).eval y) :=
    hasSum_sum_of_ne_finset_zero (fun P hP => by rw [cub_zero hP]; simp)
  convert h using 1
  rw [Finset.sum_pair (by simp)]
  have h3 : Chebyshev.T ℝ ((3 : ℕ) : ℤ) = 4 * X ^ 3 - 3 * X := T3
  rw [h3]
  simp [cub]
  ring

private theorem cub_bc : FunctionBC .neumann (fun y : ℝ => (y ^ 3 - 3 * y) / 2) := by
  have hd : ∀ y : ℝ, HasDerivAt (fun y : ℝ => (y ^ 3 - 3 * y) / 2) ((3 * y ^ 2 - 3) / 2) y := fun y => by
    have h := (((hasDerivAt_pow 3 y).sub ((hasDerivAt_id y).const_mul 3)).div_const 2)
    have e : (((3 : ℕ) : ℝ) * y ^ (3 - 1) - 3 * 1) / 2 = (3 * y ^ 2 - 3) / 2 := by norm_num
    rw [e] at h
    exact h
  intro c hc
  simp only [conditions, List.mem_cons, List.not_mem_nil, or_false] at hc
  rcases hc with rfl | rfl
  · show iteratedDerivWithin 1 _ _ (-1 : ℝ) = 0
    rw [iteratedDerivWithin_one, (hd (-1)).hasDerivWithinAt.derivWithin
      (uniqueDiffOn_Icc (by norm_num) _ (by norm_num))]
    norm_num
  · show iteratedDerivWithin 1 _ _ (1 : ℝ) = 0
    rw [iteratedDerivWithin_one, (hd 1).hasDerivWithinAt.derivWithin
      (uniqueDiffOn_Icc (by norm_num) _ (by norm_num))]
    norm_num

private theorem near (x : ℝ) (h : |x| ≤ 1) : |(binary 52).fl x - x| ≤ (binary 52).u := by
  refine ((binary 52).err x).trans ?_
  nlinarith [(binary 52).u_nonneg]

example : ∃ b o : BaseR2r (Rnd (binary 52)), newR2r (some .neumann) 17 (Rnd (binary 52)) = ok b ∧
    chebyshev 17 (Rnd (binary 52)) = ok o ∧ ∀ x out out' out'' : List (Rnd (binary 52)), x.length = 17 →
      (∀ j < 17, nth x j = ⟨(binary 52).fl (((-Real.cos (Real.pi * j / (17 - 1 : ℕ))) ^ 3
        - 3 * (-Real.cos (Real.pi * j / (17 - 1 : ℕ)))) / 2)⟩) →
      out.length = (b.toBase (Rnd (binary 52))).lenSpec → out'.length = (b.toBase (Rnd (binary 52))).lenOrth →
      out''.length = (o.toBase (Rnd (binary 52))).lenPhys →
      ∃ v g w, (b.toBase (Rnd (binary 52))).forwardSlice x out = ok v ∧
        (b.toBase (Rnd (binary 52))).gradientSlice v out' 1 = ok g ∧ (o.toBase (Rnd (binary 52))).backwardSlice g out'' = ok w ∧
        ∀ j < 17, |(nth w j).val - iteratedDerivWithin 1 (fun y : ℝ => (y ^ 3 - 3 * y) / 2) (Set.Icc (-1) 1)
          (-Real.cos (Real.pi * j / (17 - 1 : ℕ)))| ≤ 1 / 10 ^ 5 := by
  obtain ⟨c, hc⟩ := C72_new (R := binary 52) (by rw [u52']; norm_num) .neumann (.inr rfl) (n := 17) (by omega)
  have hb : newR2r (some .neumann) 17 (Rnd (binary 52)) = ok (.chebyshevComposite c) := by
    show chebComposite .neumann 17 _ = _
    unfold chebComposite
    rw [hc]; rfl
  refine ⟨_, _, hb, rfl, fun x out out' out'' hx hxv h h' h'' => ?_⟩
  obtain ⟨v, g, w, j1, j2, j3, -, hw⟩ := C98_total (R := binary 52) .neumann (.inr (.inl rfl)) 17 (by decide) _ _ hb
    ⟨binary_nearest 52, by rw [u52']; norm_num, by rw [gam52']; norm_num⟩ rfl (η := (binary 52).u) (binary 52).u_nonneg
    (rounded_error (by norm_num)) (by rw [u52']; norm_num) 1 (by rw [u52']; norm_num) cub
    (summable_of_ne_finset_zero (s := {1, 3}) (fun k hk => by rw [cub_zero hk]; simp))
    (fun y => (y ^ 3 - 3 * y) / 2) (fun y _ => hasSum_cub y) cub_bc 1 (binary 52).u (fun y hy => cub_le hy) x hx
    (fun j hj => by
      rw [hxv j hj]
      exact near _ (cub_le ⟨by linarith [Real.cos_le_one (Real.pi * j / (17 - 1 : ℕ))],
        by linarith [Real.neg_one_le_cos (Real.pi * j / (17 - 1 : ℕ))]⟩)) out out' out'' h h' h''
  refine ⟨v, g, w, j1, j2, j3, fun j hj => (hw j hj).trans ?_⟩
  have ht : ∀ d, chebTail cub 17 d = 0 := fun d => by
    refine (tsum_congr (fun k => ?_)).trans tsum_zero
    rw [cub_zero (by simp)]; simp
  rw [ht, ht]
  simp only [Amp.chain, chebTotal, Amp.bound, Amp.andThen, forwardAmp, fromAmp, toAmp, gradientAmp, backwardAmp, gam52', u52']
  norm_num

end
end Verif.Props
