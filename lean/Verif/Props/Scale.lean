/- C96, continued: scaled gradients of the spaces in arithmetic with rounding. -/
import Verif.Proof.Scale
import Verif.Props.Accurate

namespace Verif.Props
open Verif Res Spec

private theorem accurate_id {D E : Type} [NormedAddCommGroup E] {v : D → E} {M : Arr D → Res (Arr D)} {MR : Arr E → Res (Arr E)}
    {sh sh' : List ℕ} {a : Amp} (h : AccurateOn v v M MR sh sh' a.gain a.err) :
    AccurateOn v v M MR sh sh' (a.andThen ⟨1, 0⟩).gain (a.andThen ⟨1, 0⟩).err := by
  have e : a.andThen ⟨1, 0⟩ = a := by simp only [Amp.andThen, mul_one, add_zero, add_sub_cancel_left]
  rwa [e]

section
variable {R : Rounding} {P S T P' S' T' : Type} [Zero P] [Zero S] [Zero T] [Powi (Rnd R)] [DivBy (Rnd R) T]
  [Zero P'] [Zero S'] [NormedAddCommGroup T'] [NormedSpace ℝ T'] {vT : T → T'}

/-- C96: `gradient` of `Space1`, with or without a scale, serial and parallel. -/
theorem C96_space1_gradient_scaled (hp : PowiError R) (hv : DivError R vT) (sp : Space1 P S T (Rnd R)) (spR : Space1 P' S' T' ℝ)
    {d0 : ℕ} {a0 : Amp} (h0 : GradientAcc vT sp.base0 spR.base0 d0 a0) (zT : vT 0 = 0) (scale : Option (Rnd R))
    (hsc : ∀ c, scale = some c → d0 < 2 ^ 31 ∧ c.val ≠ 0) (hu : ((d0 + 1 : ℕ) : ℝ) * R.u < 1) :
    AccurateOn vT vT (fun x => sp.gradient x d0 scale) (fun x => spR.gradient x d0 (exact1 scale)) sp.shapeSpectral
      sp.shapeSpectralOrtho (a0.andThen (scaleAmp1 R d0 scale)).gain (a0.andThen (scaleAmp1 R d0 scale)).err ∧
    ∀ s0, FairSchedule [sp.base0.lenOrth] 0 s0 →
      AccurateOn vT vT (fun x => sp.gradientPar s0 x d0 scale) (fun x => spR.gradient x d0 (exact1 scale)) sp.shapeSpectral
        sp.shapeSpectralOrtho (a0.andThen (scaleAmp1 R d0 scale)).gain (a0.andThen (scaleAmp1 R d0 scale)).err := by
  obtain ⟨H, HP⟩ := C96_space1_gradient sp spR h0 zT
  cases scale with
  | none => exact ⟨accurate_id H, fun s0 hs0 => accurate_id (HP s0 hs0)⟩
  | some c =>
    obtain ⟨hd, hc⟩ := hsc c rfl
    obtain ⟨p, θ, ep, vp, fp⟩ := scale1_fac hp c hd
    have hne : c.val ^ d0 ≠ 0 := pow_ne_zero _ hc
    have D := divAll_accurate hv zT hu hne fp vp sp.shapeSpectralOrtho
    have eR : (fun x => spR.gradient x d0 (exact1 (some c))) =
        (fun x => spR.gradient x d0 none >>= fun a => ok (scaleArr (c.val ^ d0)⁻¹ a)) := by
      funext x
      show spR.gradient x d0 (some c.val) = _
      unfold Space1.gradient
      cases spR.base0.gradient x d0 0 with
      | err e => rfl
      | ok o =>
        show powi c.val (toI32 d0) >>= (fun p0 => divAll p0 o) = ok _
        rw [powi_ok hd, bind_ok, divAll_ok hne]
    have e1 : (fun x => sp.gradient x d0 (some c)) = (fun x => sp.gradient x d0 none >>= divAll p) := by
      funext x
      unfold Space1.gradient
      cases sp.base0.gradient x d0 0 with
      | err e => rfl
      | ok o =>
        show powi c (toI32 d0) >>= (fun p0 => divAll p0 o) = divAll p o
        rw [ep, bind_ok]
    refine ⟨?_, fun s0 hs0 => ?_⟩
    · rw [eR, e1]
      exact H.andThen (b := scaleAmp1 R d0 (some c)) D h0.2.1
    · have e2 : (fun x => sp.gradientPar s0 x d0 (some c)) = (fun x => sp.gradientPar s0 x d0 none >>= divAll p) := by
        funext x
        unfold Space1.gradientPar
        cases sp.base0.gradientPar s0 x d0 0 with
        | err e => rfl
        | ok o =>
          show powi c (toI32 d0) >>= (fun p0 => divAll p0 o) = divAll p o
          rw [ep, bind_ok]
      rw [eR, e2]
      exact (HP s0 hs0).andThen (b := scaleAmp1 R d0 (some c)) D h0.2.1

end

section
variable {R : Rounding} {P I S T P' I' S' T' : Type} [Zero P] [Zero I] [Zero S] [Zero T] [Powi (Rnd R)] [DivBy (Rnd R) T]
  [Zero P'] [Zero I'] [Zero S'] [NormedAddCommGroup T'] [NormedSpace ℝ T'] {vT : T → T'}

/-- C96: `gradient` of `Space2`, with or without scales, serial and parallel. -/
theorem C96_space2_gradient_scaled (hp : PowiError R) (hv : DivError R vT) (sp : Space2 P I S T (Rnd R)) (spR : Space2 P' I' S' T' ℝ)
    {d0 d1 : ℕ} {a0 a1 : Amp} (h0 : GradientAcc vT sp.base0 spR.base0 d0 a0) (h1 : GradientAcc vT sp.base1 spR.base1 d1 a1)
    (zT : vT 0 = 0) (scale : Option (Rnd R × Rnd R))
    (hsc : ∀ c, scale = some c → d0 < 2 ^ 31 ∧ d1 < 2 ^ 31 ∧ c.1.val ≠ 0 ∧ c.2.val ≠ 0) (hu : ((d0 + d1 + 2 : ℕ) : ℝ) * R.u < 1) :
    let A := (a0.andThen a1).andThen (scaleAmp2 R d0 d1 scale)
    AccurateOn vT vT (fun x => sp.gradient x d0 d1 scale) (fun x => spR.gradient x d0 d1 (exact2 scale)) sp.shapeSpectral
      sp.shapeSpectralOrtho A.gain A.err ∧
    ∀ s0 s1, FairSchedule [sp.base0.lenOrth, sp.base1.lenSpec] 0 s0 → FairSchedule [sp.base0.lenOrth, sp.base1.lenOrth] 1 s1 →
      AccurateOn vT vT (fun x => sp.gradientPar s0 s1 x d0 d1 scale) (fun x => spR.gradient x d0 d1 (exact2 scale)) sp.shapeSpectral
        sp.shapeSpectralOrtho A.gain A.err := by
  intro A
  obtain ⟨H, HP⟩ := C96_space2_gradient sp spR h0 h1 zT
  cases scale with
  | none => exact ⟨accurate_id H, fun s0 s1 hs0 hs1 => accurate_id (HP s0 s1 hs0 hs1)⟩
  | some cc =>
    obtain ⟨c0, c1⟩ := cc
    obtain ⟨hd0, hd1, hc0, hc1⟩ := hsc _ rfl
    have hu1 : R.u < 1 := by
      push_cast at hu
      nlinarith [R.u_nonneg, mul_nonneg (Nat.cast_nonneg (α := ℝ) d0) R.u_nonneg, mul_nonneg (Nat.cast_nonneg (α := ℝ) d1) R.u_nonneg]
    obtain ⟨p0, p1, θ, e0, e1, vp, fp⟩ := scale2_fac hp hu1 c0 c1 hd0 hd1
    have hne : c0.val ^ d0 * c1.val ^ d1 ≠ 0 := mul_ne_zero (pow_ne_zero _ hc0) (pow_ne_zero _ hc1)
    have D := divAll_accurate hv zT (by exact_mod_cast hu) hne fp vp sp.shapeSpectralOrtho
    have eR : (fun x => spR.gradient x d0 d1 (exact2 (some (c0, c1)))) =
        (fun x => spR.gradient x d0 d1 none >>= fun a => ok (scaleArr (c0.val ^ d0 * c1.val ^ d1)⁻¹ a)) := by
      funext x
      show spR.gradient x d0 d1 (some (c0.val, c1.val)) = _
      unfold Space2.gradient
      cases spR.base0.gradient x d0 0 with
      | err e => rfl
      | ok y =>
        rw [bind_ok, bind_ok]
        cases spR.base1.gradient y d1 1 with
        | err e => rfl
        | ok o =>
          show powi c0.val (toI32 d0) >>= (fun q0 => powi c1.val (toI32 d1) >>= fun q1 => divAll (q0 * q1) o) = ok _
          rw [powi_ok hd0, bind_ok, powi_ok hd1, bind_ok, divAll_ok hne]
    have E1 : (fun x => sp.gradient x d0 d1 (some (c0, c1))) = (fun x => sp.gradient x d0 d1 none >>= divAll (p0 * p1)) := by
      funext x
      unfold Space2.gradient
      cases sp.base0.gradient x d0 0 with
      | err e => rfl
      | ok y =>
        rw [bind_ok, bind_ok]
        cases sp.base1.gradient y d1 1 with
        | err e => rfl
        | ok o =>
          show powi c0 (toI32 d0) >>= (fun q0 => powi c1 (toI32 d1) >>= fun q1 => divAll (q0 * q1) o) = divAll (p0 * p1) o
          rw [e0, bind_ok, e1, bind_ok]
    have pn := h0.2.1.andThen h1.2.1
    refine ⟨?_, fun s0 s1 hs0 hs1 => ?_⟩
    · rw [eR, E1]
      exact H.andThen (b := scaleAmp2 R d0 d1 (some (c0, c1))) D pn
    · have E2 : (fun x => sp.gradientPar s0 s1 x d0 d1 (some (c0, c1))) =
          (fun x => sp.gradientPar s0 s1 x d0 d1 none >>= divAll (p0 * p1)) := by
        funext x
        unfold Space2.gradientPar
        cases sp.base0.gradientPar s0 x d0 0 with
        | err e => rfl
        | ok y =>
          rw [bind_ok, bind_ok]
          cases sp.base1.gradientPar s1 y d1 1 with
          | err e => rfl
          | ok o =>
            show powi c0 (toI32 d0) >>= (fun q0 => powi c1 (toI32 d1) >>= fun q1 => divAll (q0 * q1) o) = divAll (p0 * p1) o
            rw [e0, bind_ok, e1, bind_ok]
      rw [eR, E2]
      exact (HP s0 s1 hs0 hs1).andThen (b := scaleAmp2 R d0 d1 (some (c0, c1))) D pn

end

/-! ### Powers by repeated multiplication satisfy the hypothesis -/

section
variable {R : Rounding}

/-- `x.powi(d)` as `d` successive multiplications -/
noncomputable def mulPow (c : Rnd R) : ℕ → Rnd R
  | 0 => 1
  | d + 1 => mulPow c d * c

noncomputable def mulPowi : Powi (Rnd R) := ⟨fun c k => ok (mulPow c k.toNat)⟩

/-- C96: powers computed by repeated multiplication are accurate in the sense used for the scales. -/
theorem C96_powi_by_multiplication (h1 : R.u < 1) : @PowiError R mulPowi := by
  letI : Powi (Rnd R) := mulPowi
  intro c d hd
  refine ⟨mulPow c d, ?_⟩
  have key : ∀ d, ∃ θ, (mulPow c d).val = c.val ^ d * θ ∧ Fac R.u d θ := by
    intro d
    induction d with
    | zero => exact ⟨1, by show (1 : ℝ) = _; simp, Fac.one⟩
    | succ d ih =>
      obtain ⟨θ, e, f⟩ := ih
      obtain ⟨φ, fφ, hφ⟩ := R.fl_fac h1 ((mulPow c d).val * c.val)
      refine ⟨θ * φ, ?_, f.mul h1 fφ⟩
      show R.fl ((mulPow c d).val * c.val) = _
      rw [hφ, e]; ring
  obtain ⟨θ, e, f⟩ := key d
  exact ⟨θ, rfl, e, f.lo, f.hi⟩

/-- C96: division of real data, and of complex data by a real number, is one rounding. -/
theorem C96_division : DivError R (Rnd.val : Rnd R → ℝ) ∧ DivError R (RndC.val : RndC R → ℂ) := ⟨divError_real, divError_complex⟩

end
end Verif.Props
