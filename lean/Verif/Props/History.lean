/- C100: histories of round trips in arithmetic with rounding. -/
import Verif.Proof.History
import Verif.Proof.Total2
import Verif.Props.Accurate
import Verif.Props.Spaces
import Verif.Proof.AccurateSpaces

namespace Verif.Props
open Verif Res Spec

/-! ### `Space1` -/

section
variable {P S T A P' S' T' A' : Type} [Zero P] [Zero S] [Zero T] [NormedAddCommGroup P'] [NormedAddCommGroup S'] [NormedAddCommGroup T']
  {vP : P → P'} {vS : S → S'} {vT : T → T'}

theorem forward1_acc {sp : Space1 P S T A} {spR : Space1 P' S' T' A'} {a0 : Amp} (f0 : ForwardAcc vP vS sp.base0 spR.base0 a0) (zP : vP 0 = 0) (zS : vS 0 = 0)
    {F : Arr P → Res (Arr S)} (h : Forward1 sp F) :
    AccurateOn vP vS F spR.forward sp.shapePhysical sp.shapeSpectral a0.gain a0.err := by
  obtain ⟨c1, c2, c3⟩ := C96_space1_forward sp spR f0 zP zS
  cases h with
  | serial => exact c1
  | par x0 => exact c2 _  x0
  | inplace ho => exact (c3 _ ho).1
  | inplacePar x0 ho => exact (c3 _ ho).2 _  x0

theorem backward1_acc {sp : Space1 P S T A} {spR : Space1 P' S' T' A'} {b0 : Amp} (g0 : BackwardAcc vS vP sp.base0 spR.base0 b0) (zP : vP 0 = 0) (zS : vS 0 = 0)
    {F : Arr S → Res (Arr P)} (h : Backward1 sp F) :
    AccurateOn vS vP F spR.backward sp.shapeSpectral sp.shapePhysical b0.gain b0.err := by
  obtain ⟨c1, c2, c3⟩ := C96_space1_backward sp spR g0 zS zP
  cases h with
  | serial => exact c1
  | par x0 => exact c2 _  x0
  | inplace ho => exact (c3 _ ho).1
  | inplacePar x0 ho => exact (c3 _ ho).2 _  x0

/-- C100: let `backward(forward(x)) = x` for the exact bases. After any number `k` of round trips (each one serial or
parallel under any schedules, into new arrays or into arrays of the caller, in any order) the grid values have
changed by at most `(1 + ε)^k - 1` times their maximum, where `ε` is the error of one round trip. -/
theorem C100_space1_values {sp : Space1 P S T A} {spR : Space1 P' S' T' A'} {a0 b0 : Amp} (f0 : ForwardAcc vP vS sp.base0 spR.base0 a0)
    (g0 : BackwardAcc vS vP sp.base0 spR.base0 b0) (h0 : BwdFwd spR.base0) (zP : vP 0 = 0) (zS : vS 0 = 0)
    (hist : List (Arr P → Res (Arr P))) (hh : ∀ f ∈ hist, Pair (Forward1 sp) (Backward1 sp) f)
    {x : Arr P} {X : ℝ} (hx : Good x sp.shapePhysical) (hX : 0 ≤ X) (hb : MaxLe X (x.data.map vP)) :
    ∃ y, runAll hist x = ok y ∧ Good y sp.shapePhysical ∧
      MaxDist (((1 + (a0.andThen b0).err) ^ hist.length - 1) * X) (y.data.map vP) (x.data.map vP) := by
  have nf : a0.Nonneg := f0.2.1
  have nb : b0.Nonneg := g0.2.1
  refine history_id (v := vP) (L := (a0.andThen b0).gain) (MR := fun x => spR.forward x >>= spR.backward) (nf.andThen nb).2 ?_ hist ?_ x X hx hX hb
  · intro a ha
    have e : sp.shapePhysical = spR.shapePhysical := by simp only [Space1.shapePhysical, f0.1.1, f0.1.2.1, f0.1.2.2]
    obtain ⟨v, e1, -, -, e2, -⟩ := C36_space1_backward_forward spR h0 (e ▸ ha) (good_zeros _) (good_zeros _)
    show spR.forward a >>= spR.backward = _
    rw [e1]; exact e2
  · intro f hf
    obtain ⟨p, q, hp, hq, rfl⟩ := hh f hf
    exact (forward1_acc f0 zP zS hp).andThen (backward1_acc g0 zP zS hq) nf

/-- C100: let `forward(backward(v)) = v` for the exact bases. After any number `k` of round trips the coefficients
have changed by at most `(1 + ε)^k - 1` times their maximum. -/
theorem C100_space1_coefficients {sp : Space1 P S T A} {spR : Space1 P' S' T' A'} {a0 b0 : Amp} (f0 : ForwardAcc vP vS sp.base0 spR.base0 a0)
    (g0 : BackwardAcc vS vP sp.base0 spR.base0 b0) (h0 : FwdBwd spR.base0) (zP : vP 0 = 0) (zS : vS 0 = 0)
    (hist : List (Arr S → Res (Arr S))) (hh : ∀ f ∈ hist, Pair (Backward1 sp) (Forward1 sp) f)
    {x : Arr S} {X : ℝ} (hx : Good x sp.shapeSpectral) (hX : 0 ≤ X) (hb : MaxLe X (x.data.map vS)) :
    ∃ y, runAll hist x = ok y ∧ Good y sp.shapeSpectral ∧
      MaxDist (((1 + (b0.andThen a0).err) ^ hist.length - 1) * X) (y.data.map vS) (x.data.map vS) := by
  have nf : a0.Nonneg := f0.2.1
  have nb : b0.Nonneg := g0.2.1
  refine history_id (v := vS) (L := (b0.andThen a0).gain) (MR := fun x => spR.backward x >>= spR.forward) (nb.andThen nf).2 ?_ hist ?_ x X hx hX hb
  · intro a ha
    have e : sp.shapeSpectral = spR.shapeSpectral := by simp only [Space1.shapeSpectral, f0.1.1, f0.1.2.1, f0.1.2.2]
    obtain ⟨v, e1, -, -, e2, -⟩ := C36_space1_forward_backward spR h0 (e ▸ ha) (good_zeros _) (good_zeros _)
    show spR.backward a >>= spR.forward = _
    rw [e1]; exact e2
  · intro f hf
    obtain ⟨p, q, hp, hq, rfl⟩ := hh f hf
    exact (backward1_acc g0 zP zS hp).andThen (forward1_acc f0 zP zS hq) nb

/-- C100: let `forward(backward(forward(x))) = forward(x)` for the exact space, as it is for all bases, so that a
round trip projects on the space. After any number `k ≥ 1` of round trips the grid values differ from the exact
projection by at most `(1 + L ε)^k - 1` times its maximum, where `L` is the gain and `ε` the error of one round
trip: the errors add up, the gains do not multiply. -/
theorem C100_space1_projection [Module ℝ P'] [Module ℝ S'] {sp : Space1 P S T A} {spR : Space1 P' S' T' A'} {a0 b0 : Amp} (f0 : ForwardAcc vP vS sp.base0 spR.base0 a0)
    (g0 : BackwardAcc vS vP sp.base0 spR.base0 b0) (h : FwdBwd spR.base0)
    (l0 : LinOp ℝ spR.base0.forwardSlice spR.base0.lenPhys spR.base0.lenSpec) (m0 : LinOp ℝ spR.base0.backwardSlice spR.base0.lenSpec spR.base0.lenPhys)
    (zP : vP 0 = 0) (zS : vS 0 = 0) (uP : Function.Surjective vP) (uS : Function.Surjective vS) (hL : 1 ≤ (a0.andThen b0).gain)
    (hist : List (Arr P → Res (Arr P))) (hne : hist ≠ []) (hh : ∀ f ∈ hist, Pair (Forward1 sp) (Backward1 sp) f)
    {x : Arr P} {X : ℝ} (hx : Good x sp.shapePhysical) (hX : 0 ≤ X) (hb : MaxLe X (x.data.map vP)) :
    ∃ y v p, runAll hist x = ok y ∧ spR.forward (onArray vP x) = ok v ∧ spR.backward v = ok p ∧
      Good y sp.shapePhysical ∧ Good p sp.shapePhysical ∧
      MaxDist (((1 + (a0.andThen b0).gain * (a0.andThen b0).err) ^ hist.length - 1) * ((a0.andThen b0).gain * X)) (y.data.map vP) p.data := by
  have nf : a0.Nonneg := f0.2.1
  have nb : b0.Nonneg := g0.2.1
  have e : spR.shapePhysical = sp.shapePhysical := (by simp only [Space1.shapePhysical, f0.1.1, f0.1.2.1, f0.1.2.2] : sp.shapePhysical = spR.shapePhysical).symm
  have e' : sp.shapeSpectral = spR.shapeSpectral := by simp only [Space1.shapeSpectral, f0.1.1, f0.1.2.1, f0.1.2.2]
  have F := e'.symm ▸ e ▸ forward1_acc (f0.lipschitz l0 uP) rfl rfl Forward1.serial
  have G := e'.symm ▸ e ▸ backward1_acc (g0.lipschitz m0 uS) rfl rfl Backward1.serial
  have lip : AccurateOn id id (fun x => spR.forward x >>= spR.backward) (fun x => spR.forward x >>= spR.backward) sp.shapePhysical sp.shapePhysical
      (a0.andThen b0).gain 0 := by
    have := F.andThen G (by refine ⟨?_, ?_⟩ <;> simp only [Amp.andThen] <;> first | exact nf.1 | simp)
    simpa [Amp.andThen] using this
  have key : ∀ a, Good a sp.shapePhysical → ∃ v y, spR.forward a = ok v ∧ spR.backward v = ok y ∧ Good y sp.shapePhysical ∧ spR.forward y = ok v := by
    intro a ha
    · obtain ⟨-, v, -, e1, -, gv, -, -⟩ := F (onArray id a) a _ 0 (good_onArray id ha) ha (exists_maxLe a.data).choose_spec.1 le_rfl (exists_maxLe a.data).choose_spec.2 (by simpa [onArray] using MaxDist.refl)
      obtain ⟨y, e2, -, gy, e3, -⟩ := C36_space1_forward_backward spR h (e' ▸ gv) (good_zeros _) (good_zeros _)
      exact ⟨v, y, e1, e2, e ▸ gy, e3⟩
  obtain ⟨y, p, e1, e2, gy, gp, dd⟩ := history_proj (v := vP) (MR := fun x => spR.forward x >>= spR.backward) (nf.andThen nb).2 hL lip
    (fun a ha => by
      obtain ⟨v, y, e1, e2, gy, e3⟩ := key a ha
      refine ⟨y, ?_, gy, ?_⟩
      · show spR.forward a >>= spR.backward = _
        rw [e1]; exact e2
      · show spR.forward y >>= spR.backward = _
        rw [e3]; exact e2) hist hne (fun f hf => by
      obtain ⟨p, q, hp, hq, rfl⟩ := hh f hf
      exact (forward1_acc f0 zP zS hp).andThen (backward1_acc g0 zP zS hq) nf) hx hX hb
  obtain ⟨v, p', k1, k2, -, -⟩ := key _ (good_onArray vP hx)
  have e2' : spR.forward (onArray vP x) >>= spR.backward = ok p := e2
  rw [k1] at e2'
  exact ⟨y, v, p, e1, k1, e2', gy, gp, dd⟩

end

section
variable {P S T A P' S' T' A' : Type} [Zero P] [Zero S] [Zero T] [NormedAddCommGroup P'] [NormedAddCommGroup S'] [NormedCommRing T']
  {vT : T → T'}

/-- C100: let `from_ortho(to_ortho(v)) = v` for the exact bases. After any number `k` of round trips through the
orthogonal space the coefficients have changed by at most `(1 + ε)^k - 1` times their maximum. -/
theorem C100_space1_ortho {sp : Space1 P S T A} {spR : Space1 P' S' T' A'} {a0 b0 : Amp} (f0 : ToOrthoAcc vT sp.base0 spR.base0 a0)
    (g0 : FromOrthoAcc vT sp.base0 spR.base0 b0) (h0 : FromTo spR.base0)
     (zT : vT 0 = 0)
    (hist : List (Arr T → Res (Arr T))) (hh : ∀ f ∈ hist, Pair (ToOrtho1 sp) (FromOrtho1 sp) f)
    {x : Arr T} {X : ℝ} (hx : Good x sp.shapeSpectral) (hX : 0 ≤ X) (hb : MaxLe X (x.data.map vT)) :
    ∃ y, runAll hist x = ok y ∧ Good y sp.shapeSpectral ∧
      MaxDist (((1 + (a0.andThen b0).err) ^ hist.length - 1) * X) (y.data.map vT) (x.data.map vT) := by
  have nf : a0.Nonneg := f0.2.1
  have nb : b0.Nonneg := g0.2.1
  have FF : ∀ F, ToOrtho1 sp F → AccurateOn vT vT F spR.toOrtho sp.shapeSpectral sp.shapeSpectralOrtho a0.gain a0.err := by
    intro F h
    obtain ⟨c1, c2, c3⟩ := C96_space1_to_ortho sp spR f0 zT
    cases h with
    | serial => exact c1
    | par x0 => exact c2 _  x0
    | inplace ho => exact (c3 _ ho).1
    | inplacePar x0 ho => exact (c3 _ ho).2 _  x0
  have GG : ∀ F, FromOrtho1 sp F → AccurateOn vT vT F spR.fromOrtho sp.shapeSpectralOrtho sp.shapeSpectral b0.gain b0.err := by
    intro F h
    obtain ⟨c1, c2, c3⟩ := C96_space1_from_ortho sp spR g0 zT
    cases h with
    | serial => exact c1
    | par x0 => exact c2 _  x0
    | inplace ho => exact (c3 _ ho).1
    | inplacePar x0 ho => exact (c3 _ ho).2 _  x0
  refine history_id (v := vT) (L := (a0.andThen b0).gain) (MR := fun x => spR.toOrtho x >>= spR.fromOrtho) (nf.andThen nb).2 ?_ hist ?_ x X hx hX hb
  · intro a ha
    have e : sp.shapeSpectral = spR.shapeSpectral := by simp only [Space1.shapeSpectral, f0.1.1, f0.1.2.1, f0.1.2.2]
    obtain ⟨v, e1, -, -, e2, -⟩ := C36_space1_from_ortho_to_ortho spR h0  (e ▸ ha) (good_zeros _) (good_zeros _)
    show spR.toOrtho a >>= spR.fromOrtho = _
    rw [e1]; exact e2
  · intro f hf
    obtain ⟨p, q, hp, hq, rfl⟩ := hh f hf
    exact (FF p hp).andThen (GG q hq) nf

end

/-! ### `Space2` -/

section
variable {P I S T A P' I' S' T' A' : Type} [Zero P] [Zero I] [Zero S] [Zero T] [NormedAddCommGroup P'] [NormedAddCommGroup I'] [NormedAddCommGroup S'] [NormedAddCommGroup T']
  {vP : P → P'} {vI : I → I'} {vS : S → S'} {vT : T → T'}

theorem forward2_acc {sp : Space2 P I S T A} {spR : Space2 P' I' S' T' A'} {a0 a1 : Amp} (f0 : ForwardAcc vI vS sp.base0 spR.base0 a0) (f1 : ForwardAcc vP vI sp.base1 spR.base1 a1) (zP : vP 0 = 0) (zI : vI 0 = 0) (zS : vS 0 = 0)
    {F : Arr P → Res (Arr S)} (h : Forward2 sp F) :
    AccurateOn vP vS F spR.forward sp.shapePhysical sp.shapeSpectral (a1.andThen a0).gain (a1.andThen a0).err := by
  obtain ⟨c1, c2, c3⟩ := C96_space2_forward sp spR f0 f1 zP zI zS
  cases h with
  | serial => exact c1
  | par x0 x1 => exact c2 _ _ x0 x1
  | inplace ho => exact (c3 _ ho).1
  | inplacePar x0 x1 ho => exact (c3 _ ho).2 _ _ x0 x1

theorem backward2_acc {sp : Space2 P I S T A} {spR : Space2 P' I' S' T' A'} {b0 b1 : Amp} (g0 : BackwardAcc vS vI sp.base0 spR.base0 b0) (g1 : BackwardAcc vI vP sp.base1 spR.base1 b1) (zP : vP 0 = 0) (zI : vI 0 = 0) (zS : vS 0 = 0)
    {F : Arr S → Res (Arr P)} (h : Backward2 sp F) :
    AccurateOn vS vP F spR.backward sp.shapeSpectral sp.shapePhysical (b0.andThen b1).gain (b0.andThen b1).err := by
  obtain ⟨c1, c2, c3⟩ := C96_space2_backward sp spR g0 g1 zS zI zP
  cases h with
  | serial => exact c1
  | par x0 x1 => exact c2 _ _ x0 x1
  | inplace ho => exact (c3 _ ho).1
  | inplacePar x0 x1 ho => exact (c3 _ ho).2 _ _ x0 x1

/-- C100: let `backward(forward(x)) = x` for the exact bases. After any number `k` of round trips (each one serial or
parallel under any schedules, into new arrays or into arrays of the caller, in any order) the grid values have
changed by at most `(1 + ε)^k - 1` times their maximum, where `ε` is the error of one round trip. -/
theorem C100_space2_values {sp : Space2 P I S T A} {spR : Space2 P' I' S' T' A'} {a0 a1 b0 b1 : Amp} (f0 : ForwardAcc vI vS sp.base0 spR.base0 a0) (f1 : ForwardAcc vP vI sp.base1 spR.base1 a1)
    (g0 : BackwardAcc vS vI sp.base0 spR.base0 b0) (g1 : BackwardAcc vI vP sp.base1 spR.base1 b1) (h0 : BwdFwd spR.base0) (h1 : BwdFwd spR.base1) (zP : vP 0 = 0) (zI : vI 0 = 0) (zS : vS 0 = 0)
    (hist : List (Arr P → Res (Arr P))) (hh : ∀ f ∈ hist, Pair (Forward2 sp) (Backward2 sp) f)
    {x : Arr P} {X : ℝ} (hx : Good x sp.shapePhysical) (hX : 0 ≤ X) (hb : MaxLe X (x.data.map vP)) :
    ∃ y, runAll hist x = ok y ∧ Good y sp.shapePhysical ∧
      MaxDist (((1 + ((a1.andThen a0).andThen (b0.andThen b1)).err) ^ hist.length - 1) * X) (y.data.map vP) (x.data.map vP) := by
  have nf : (a1.andThen a0).Nonneg := (f1.2.1).andThen f0.2.1
  have nb : (b0.andThen b1).Nonneg := (g0.2.1).andThen g1.2.1
  refine history_id (v := vP) (L := ((a1.andThen a0).andThen (b0.andThen b1)).gain) (MR := fun x => spR.forward x >>= spR.backward) (nf.andThen nb).2 ?_ hist ?_ x X hx hX hb
  · intro a ha
    have e : sp.shapePhysical = spR.shapePhysical := by simp only [Space2.shapePhysical, f0.1.1, f0.1.2.1, f0.1.2.2, f1.1.1, f1.1.2.1, f1.1.2.2]
    obtain ⟨v, e1, -, -, e2, -⟩ := C36_backward_forward spR h0 h1 (e ▸ ha) (good_zeros _) (good_zeros _)
    show spR.forward a >>= spR.backward = _
    rw [e1]; exact e2
  · intro f hf
    obtain ⟨p, q, hp, hq, rfl⟩ := hh f hf
    exact (forward2_acc f0 f1 zP zI zS hp).andThen (backward2_acc g0 g1 zP zI zS hq) nf

/-- C100: let `forward(backward(v)) = v` for the exact bases. After any number `k` of round trips the coefficients
have changed by at most `(1 + ε)^k - 1` times their maximum. -/
theorem C100_space2_coefficients {sp : Space2 P I S T A} {spR : Space2 P' I' S' T' A'} {a0 a1 b0 b1 : Amp} (f0 : ForwardAcc vI vS sp.base0 spR.base0 a0) (f1 : ForwardAcc vP vI sp.base1 spR.base1 a1)
    (g0 : BackwardAcc vS vI sp.base0 spR.base0 b0) (g1 : BackwardAcc vI vP sp.base1 spR.base1 b1) (h0 : FwdBwd spR.base0) (h1 : FwdBwd spR.base1) (zP : vP 0 = 0) (zI : vI 0 = 0) (zS : vS 0 = 0)
    (hist : List (Arr S → Res (Arr S))) (hh : ∀ f ∈ hist, Pair (Backward2 sp) (Forward2 sp) f)
    {x : Arr S} {X : ℝ} (hx : Good x sp.shapeSpectral) (hX : 0 ≤ X) (hb : MaxLe X (x.data.map vS)) :
    ∃ y, runAll hist x = ok y ∧ Good y sp.shapeSpectral ∧
      MaxDist (((1 + ((b0.andThen b1).andThen (a1.andThen a0)).err) ^ hist.length - 1) * X) (y.data.map vS) (x.data.map vS) := by
  have nf : (a1.andThen a0).Nonneg := (f1.2.1).andThen f0.2.1
  have nb : (b0.andThen b1).Nonneg := (g0.2.1).andThen g1.2.1
  refine history_id (v := vS) (L := ((b0.andThen b1).andThen (a1.andThen a0)).gain) (MR := fun x => spR.backward x >>= spR.forward) (nb.andThen nf).2 ?_ hist ?_ x X hx hX hb
  · intro a ha
    have e : sp.shapeSpectral = spR.shapeSpectral := by simp only [Space2.shapeSpectral, f0.1.1, f0.1.2.1, f0.1.2.2, f1.1.1, f1.1.2.1, f1.1.2.2]
    obtain ⟨v, e1, -, -, e2, -⟩ := C36_forward_backward spR h0 h1 (e ▸ ha) (good_zeros _) (good_zeros _)
    show spR.backward a >>= spR.forward = _
    rw [e1]; exact e2
  · intro f hf
    obtain ⟨p, q, hp, hq, rfl⟩ := hh f hf
    exact (backward2_acc g0 g1 zP zI zS hp).andThen (forward2_acc f0 f1 zP zI zS hq) nb

/-- C100: let `forward(backward(forward(x))) = forward(x)` for the exact space, as it is for all bases, so that a
round trip projects on the space. After any number `k ≥ 1` of round trips the grid values differ from the exact
projection by at most `(1 + L ε)^k - 1` times its maximum, where `L` is the gain and `ε` the error of one round
trip: the errors add up, the gains do not multiply. -/
theorem C100_space2_projection [Module ℝ P'] [Module ℝ I'] [Module ℝ S'] {sp : Space2 P I S T A} {spR : Space2 P' I' S' T' A'} {a0 a1 b0 b1 : Amp} (f0 : ForwardAcc vI vS sp.base0 spR.base0 a0) (f1 : ForwardAcc vP vI sp.base1 spR.base1 a1)
    (g0 : BackwardAcc vS vI sp.base0 spR.base0 b0) (g1 : BackwardAcc vI vP sp.base1 spR.base1 b1) (h : (FwdBwd spR.base0 ∨ BwdFwd spR.base0) ∧ FwdBwd spR.base1)
    (l0 : LinOp ℝ spR.base0.forwardSlice spR.base0.lenPhys spR.base0.lenSpec) (m0 : LinOp ℝ spR.base0.backwardSlice spR.base0.lenSpec spR.base0.lenPhys) (l1 : LinOp ℝ spR.base1.forwardSlice spR.base1.lenPhys spR.base1.lenSpec) (m1 : LinOp ℝ spR.base1.backwardSlice spR.base1.lenSpec spR.base1.lenPhys)
    (zP : vP 0 = 0) (zI : vI 0 = 0) (zS : vS 0 = 0) (uP : Function.Surjective vP) (uI : Function.Surjective vI) (uS : Function.Surjective vS) (hL : 1 ≤ ((a1.andThen a0).andThen (b0.andThen b1)).gain)
    (hist : List (Arr P → Res (Arr P))) (hne : hist ≠ []) (hh : ∀ f ∈ hist, Pair (Forward2 sp) (Backward2 sp) f)
    {x : Arr P} {X : ℝ} (hx : Good x sp.shapePhysical) (hX : 0 ≤ X) (hb : MaxLe X (x.data.map vP)) :
    ∃ y v p, runAll hist x = ok y ∧ spR.forward (onArray vP x) = ok v ∧ spR.backward v = ok p ∧
      Good y sp.shapePhysical ∧ Good p sp.shapePhysical ∧
      MaxDist (((1 + ((a1.andThen a0).andThen (b0.andThen b1)).gain * ((a1.andThen a0).andThen (b0.andThen b1)).err) ^ hist.length - 1) * (((a1.andThen a0).andThen (b0.andThen b1)).gain * X)) (y.data.map vP) p.data := by
  have nf : (a1.andThen a0).Nonneg := (f1.2.1).andThen f0.2.1
  have nb : (b0.andThen b1).Nonneg := (g0.2.1).andThen g1.2.1
  have e : spR.shapePhysical = sp.shapePhysical := (by simp only [Space2.shapePhysical, f0.1.1, f0.1.2.1, f0.1.2.2, f1.1.1, f1.1.2.1, f1.1.2.2] : sp.shapePhysical = spR.shapePhysical).symm
  have e' : sp.shapeSpectral = spR.shapeSpectral := by simp only [Space2.shapeSpectral, f0.1.1, f0.1.2.1, f0.1.2.2, f1.1.1, f1.1.2.1, f1.1.2.2]
  have F := e'.symm ▸ e ▸ forward2_acc (f0.lipschitz l0 uI) (f1.lipschitz l1 uP) rfl rfl rfl Forward2.serial
  have G := e'.symm ▸ e ▸ backward2_acc (g0.lipschitz m0 uS) (g1.lipschitz m1 uI) rfl rfl rfl Backward2.serial
  have lip : AccurateOn id id (fun x => spR.forward x >>= spR.backward) (fun x => spR.forward x >>= spR.backward) sp.shapePhysical sp.shapePhysical
      ((a1.andThen a0).andThen (b0.andThen b1)).gain 0 := by
    have := F.andThen G (by refine ⟨?_, ?_⟩ <;> simp only [Amp.andThen] <;> first | exact nf.1 | simp)
    simpa [Amp.andThen] using this
  have key : ∀ a, Good a sp.shapePhysical → ∃ v y, spR.forward a = ok v ∧ spR.backward v = ok y ∧ Good y sp.shapePhysical ∧ spR.forward y = ok v := by
    intro a ha
    rcases h with ⟨h0 | h0, h1⟩
    · obtain ⟨-, v, -, e1, -, gv, -, -⟩ := F (onArray id a) a _ 0 (good_onArray id ha) ha (exists_maxLe a.data).choose_spec.1 le_rfl (exists_maxLe a.data).choose_spec.2 (by simpa [onArray] using MaxDist.refl)
      obtain ⟨y, e2, -, gy, e3, -⟩ := C36_forward_backward spR h0 h1 (e' ▸ gv) (good_zeros _) (good_zeros _)
      exact ⟨v, y, e1, e2, e ▸ gy, e3⟩
    · obtain ⟨v, y, e1, -, e2, gy, e3⟩ := C36_forward_backward_forward spR h0 h1 (e ▸ ha)
      exact ⟨v, y, e1, e2, e ▸ gy, e3⟩
  obtain ⟨y, p, e1, e2, gy, gp, dd⟩ := history_proj (v := vP) (MR := fun x => spR.forward x >>= spR.backward) (nf.andThen nb).2 hL lip
    (fun a ha => by
      obtain ⟨v, y, e1, e2, gy, e3⟩ := key a ha
      refine ⟨y, ?_, gy, ?_⟩
      · show spR.forward a >>= spR.backward = _
        rw [e1]; exact e2
      · show spR.forward y >>= spR.backward = _
        rw [e3]; exact e2) hist hne (fun f hf => by
      obtain ⟨p, q, hp, hq, rfl⟩ := hh f hf
      exact (forward2_acc f0 f1 zP zI zS hp).andThen (backward2_acc g0 g1 zP zI zS hq) nf) hx hX hb
  obtain ⟨v, p', k1, k2, -, -⟩ := key _ (good_onArray vP hx)
  have e2' : spR.forward (onArray vP x) >>= spR.backward = ok p := e2
  rw [k1] at e2'
  exact ⟨y, v, p, e1, k1, e2', gy, gp, dd⟩

end

section
variable {P I S T A P' I' S' T' A' : Type} [Zero P] [Zero I] [Zero S] [Zero T] [NormedAddCommGroup P'] [NormedAddCommGroup I'] [NormedAddCommGroup S'] [NormedCommRing T']
  {vT : T → T'}

/-- C100: let `from_ortho(to_ortho(v)) = v` for the exact bases. After any number `k` of round trips through the
orthogonal space the coefficients have changed by at most `(1 + ε)^k - 1` times their maximum. -/
theorem C100_space2_ortho {sp : Space2 P I S T A} {spR : Space2 P' I' S' T' A'} {a0 a1 b0 b1 : Amp} (f0 : ToOrthoAcc vT sp.base0 spR.base0 a0) (f1 : ToOrthoAcc vT sp.base1 spR.base1 a1)
    (g0 : FromOrthoAcc vT sp.base0 spR.base0 b0) (g1 : FromOrthoAcc vT sp.base1 spR.base1 b1) (h0 : FromTo spR.base0) (h1 : FromTo spR.base1)
    (t0 : LinOp T' spR.base0.toOrthoSlice spR.base0.lenSpec spR.base0.lenOrth) (l0 : LinOp T' spR.base0.fromOrthoSlice spR.base0.lenOrth spR.base0.lenSpec) (t1 : LinOp T' spR.base1.toOrthoSlice spR.base1.lenSpec spR.base1.lenOrth) (l1 : LinOp T' spR.base1.fromOrthoSlice spR.base1.lenOrth spR.base1.lenSpec) (zT : vT 0 = 0)
    (hist : List (Arr T → Res (Arr T))) (hh : ∀ f ∈ hist, Pair (ToOrtho2 sp) (FromOrtho2 sp) f)
    {x : Arr T} {X : ℝ} (hx : Good x sp.shapeSpectral) (hX : 0 ≤ X) (hb : MaxLe X (x.data.map vT)) :
    ∃ y, runAll hist x = ok y ∧ Good y sp.shapeSpectral ∧
      MaxDist (((1 + ((a0.andThen a1).andThen (b0.andThen b1)).err) ^ hist.length - 1) * X) (y.data.map vT) (x.data.map vT) := by
  have nf : (a0.andThen a1).Nonneg := (f0.2.1).andThen f1.2.1
  have nb : (b0.andThen b1).Nonneg := (g0.2.1).andThen g1.2.1
  have FF : ∀ F, ToOrtho2 sp F → AccurateOn vT vT F spR.toOrtho sp.shapeSpectral sp.shapeSpectralOrtho (a0.andThen a1).gain (a0.andThen a1).err := by
    intro F h
    obtain ⟨c1, c2, c3⟩ := C96_space2_to_ortho sp spR f0 f1 zT
    cases h with
    | serial => exact c1
    | par x0 x1 => exact c2 _ _ x0 x1
    | inplace ho => exact (c3 _ ho).1
    | inplacePar x0 x1 ho => exact (c3 _ ho).2 _ _ x0 x1
  have GG : ∀ F, FromOrtho2 sp F → AccurateOn vT vT F spR.fromOrtho sp.shapeSpectralOrtho sp.shapeSpectral (b0.andThen b1).gain (b0.andThen b1).err := by
    intro F h
    obtain ⟨c1, c2, c3⟩ := C96_space2_from_ortho sp spR g0 g1 zT
    cases h with
    | serial => exact c1
    | par x0 x1 => exact c2 _ _ x0 x1
    | inplace ho => exact (c3 _ ho).1
    | inplacePar x0 x1 ho => exact (c3 _ ho).2 _ _ x0 x1
  refine history_id (v := vT) (L := ((a0.andThen a1).andThen (b0.andThen b1)).gain) (MR := fun x => spR.toOrtho x >>= spR.fromOrtho) (nf.andThen nb).2 ?_ hist ?_ x X hx hX hb
  · intro a ha
    have e : sp.shapeSpectral = spR.shapeSpectral := by simp only [Space2.shapeSpectral, f0.1.1, f0.1.2.1, f0.1.2.2, f1.1.1, f1.1.2.1, f1.1.2.2]
    obtain ⟨v, e1, -, -, e2, -⟩ := C36_from_ortho_to_ortho spR h0 h1 t0 l0 t1 l1 (e ▸ ha) (good_zeros _) (good_zeros _)
    show spR.toOrtho a >>= spR.fromOrtho = _
    rw [e1]; exact e2
  · intro f hf
    obtain ⟨p, q, hp, hq, rfl⟩ := hh f hf
    exact (FF p hp).andThen (GG q hq) nf

end

/-! ### `Space3` -/

section
variable {P I J S T A P' I' J' S' T' A' : Type} [Zero P] [Zero I] [Zero J] [Zero S] [Zero T] [NormedAddCommGroup P'] [NormedAddCommGroup I'] [NormedAddCommGroup J'] [NormedAddCommGroup S'] [NormedAddCommGroup T']
  {vP : P → P'} {vI : I → I'} {vJ : J → J'} {vS : S → S'} {vT : T → T'}

theorem forward3_acc {sp : Space3 P I J S T A} {spR : Space3 P' I' J' S' T' A'} {a0 a1 a2 : Amp} (f0 : ForwardAcc vJ vS sp.base0 spR.base0 a0) (f1 : ForwardAcc vI vJ sp.base1 spR.base1 a1) (f2 : ForwardAcc vP vI sp.base2 spR.base2 a2) (zP : vP 0 = 0) (zI : vI 0 = 0) (zJ : vJ 0 = 0) (zS : vS 0 = 0)
    {F : Arr P → Res (Arr S)} (h : Forward3 sp F) :
    AccurateOn vP vS F spR.forward sp.shapePhysical sp.shapeSpectral ((a2.andThen a1).andThen a0).gain ((a2.andThen a1).andThen a0).err := by
  obtain ⟨c1, c2, c3⟩ := C96_space3_forward sp spR f0 f1 f2 zP zI zJ zS
  cases h with
  | serial => exact c1
  | par x0 x1 x2 => exact c2 _ _ _ x0 x1 x2
  | inplace ho => exact (c3 _ ho).1
  | inplacePar x0 x1 x2 ho => exact (c3 _ ho).2 _ _ _ x0 x1 x2

theorem backward3_acc {sp : Space3 P I J S T A} {spR : Space3 P' I' J' S' T' A'} {b0 b1 b2 : Amp} (g0 : BackwardAcc vS vJ sp.base0 spR.base0 b0) (g1 : BackwardAcc vJ vI sp.base1 spR.base1 b1) (g2 : BackwardAcc vI vP sp.base2 spR.base2 b2) (zP : vP 0 = 0) (zI : vI 0 = 0) (zJ : vJ 0 = 0) (zS : vS 0 = 0)
    {F : Arr S → Res (Arr P)} (h : Backward3 sp F) :
    AccurateOn vS vP F spR.backward sp.shapeSpectral sp.shapePhysical ((b0.andThen b1).andThen b2).gain ((b0.andThen b1).andThen b2).err := by
  obtain ⟨c1, c2, c3⟩ := C96_space3_backward sp spR g0 g1 g2 zS zJ zI zP
  cases h with
  | serial => exact c1
  | par x0 x1 x2 => exact c2 _ _ _ x0 x1 x2
  | inplace ho => exact (c3 _ ho).1
  | inplacePar x0 x1 x2 ho => exact (c3 _ ho).2 _ _ _ x0 x1 x2

/-- C100: let `backward(forward(x)) = x` for the exact bases. After any number `k` of round trips (each one serial or
parallel under any schedules, into new arrays or into arrays of the caller, in any order) the grid values have
changed by at most `(1 + ε)^k - 1` times their maximum, where `ε` is the error of one round trip. -/
theorem C100_space3_values {sp : Space3 P I J S T A} {spR : Space3 P' I' J' S' T' A'} {a0 a1 a2 b0 b1 b2 : Amp} (f0 : ForwardAcc vJ vS sp.base0 spR.base0 a0) (f1 : ForwardAcc vI vJ sp.base1 spR.base1 a1) (f2 : ForwardAcc vP vI sp.base2 spR.base2 a2)
    (g0 : BackwardAcc vS vJ sp.base0 spR.base0 b0) (g1 : BackwardAcc vJ vI sp.base1 spR.base1 b1) (g2 : BackwardAcc vI vP sp.base2 spR.base2 b2) (h0 : BwdFwd spR.base0) (h1 : BwdFwd spR.base1) (h2 : BwdFwd spR.base2) (zP : vP 0 = 0) (zI : vI 0 = 0) (zJ : vJ 0 = 0) (zS : vS 0 = 0)
    (hist : List (Arr P → Res (Arr P))) (hh : ∀ f ∈ hist, Pair (Forward3 sp) (Backward3 sp) f)
    {x : Arr P} {X : ℝ} (hx : Good x sp.shapePhysical) (hX : 0 ≤ X) (hb : MaxLe X (x.data.map vP)) :
    ∃ y, runAll hist x = ok y ∧ Good y sp.shapePhysical ∧
      MaxDist (((1 + (((a2.andThen a1).andThen a0).andThen ((b0.andThen b1).andThen b2)).err) ^ hist.length - 1) * X) (y.data.map vP) (x.data.map vP) := by
  have nf : ((a2.andThen a1).andThen a0).Nonneg := ((f2.2.1).andThen f1.2.1).andThen f0.2.1
  have nb : ((b0.andThen b1).andThen b2).Nonneg := ((g0.2.1).andThen g1.2.1).andThen g2.2.1
  refine history_id (v := vP) (L := (((a2.andThen a1).andThen a0).andThen ((b0.andThen b1).andThen b2)).gain) (MR := fun x => spR.forward x >>= spR.backward) (nf.andThen nb).2 ?_ hist ?_ x X hx hX hb
  · intro a ha
    have e : sp.shapePhysical = spR.shapePhysical := by simp only [Space3.shapePhysical, f0.1.1, f0.1.2.1, f0.1.2.2, f1.1.1, f1.1.2.1, f1.1.2.2, f2.1.1, f2.1.2.1, f2.1.2.2]
    obtain ⟨v, e1, -, -, e2, -⟩ := C39_backward_forward spR h0 h1 h2 (e ▸ ha) (good_zeros _) (good_zeros _)
    show spR.forward a >>= spR.backward = _
    rw [e1]; exact e2
  · intro f hf
    obtain ⟨p, q, hp, hq, rfl⟩ := hh f hf
    exact (forward3_acc f0 f1 f2 zP zI zJ zS hp).andThen (backward3_acc g0 g1 g2 zP zI zJ zS hq) nf

/-- C100: let `forward(backward(v)) = v` for the exact bases. After any number `k` of round trips the coefficients
have changed by at most `(1 + ε)^k - 1` times their maximum. -/
theorem C100_space3_coefficients {sp : Space3 P I J S T A} {spR : Space3 P' I' J' S' T' A'} {a0 a1 a2 b0 b1 b2 : Amp} (f0 : ForwardAcc vJ vS sp.base0 spR.base0 a0) (f1 : ForwardAcc vI vJ sp.base1 spR.base1 a1) (f2 : ForwardAcc vP vI sp.base2 spR.base2 a2)
    (g0 : BackwardAcc vS vJ sp.base0 spR.base0 b0) (g1 : BackwardAcc vJ vI sp.base1 spR.base1 b1) (g2 : BackwardAcc vI vP sp.base2 spR.base2 b2) (h0 : FwdBwd spR.base0) (h1 : FwdBwd spR.base1) (h2 : FwdBwd spR.base2) (zP : vP 0 = 0) (zI : vI 0 = 0) (zJ : vJ 0 = 0) (zS : vS 0 = 0)
    (hist : List (Arr S → Res (Arr S))) (hh : ∀ f ∈ hist, Pair (Backward3 sp) (Forward3 sp) f)
    {x : Arr S} {X : ℝ} (hx : Good x sp.shapeSpectral) (hX : 0 ≤ X) (hb : MaxLe X (x.data.map vS)) :
    ∃ y, runAll hist x = ok y ∧ Good y sp.shapeSpectral ∧
      MaxDist (((1 + (((b0.andThen b1).andThen b2).andThen ((a2.andThen a1).andThen a0)).err) ^ hist.length - 1) * X) (y.data.map vS) (x.data.map vS) := by
  have nf : ((a2.andThen a1).andThen a0).Nonneg := ((f2.2.1).andThen f1.2.1).andThen f0.2.1
  have nb : ((b0.andThen b1).andThen b2).Nonneg := ((g0.2.1).andThen g1.2.1).andThen g2.2.1
  refine history_id (v := vS) (L := (((b0.andThen b1).andThen b2).andThen ((a2.andThen a1).andThen a0)).gain) (MR := fun x => spR.backward x >>= spR.forward) (nb.andThen nf).2 ?_ hist ?_ x X hx hX hb
  · intro a ha
    have e : sp.shapeSpectral = spR.shapeSpectral := by simp only [Space3.shapeSpectral, f0.1.1, f0.1.2.1, f0.1.2.2, f1.1.1, f1.1.2.1, f1.1.2.2, f2.1.1, f2.1.2.1, f2.1.2.2]
    obtain ⟨v, e1, -, -, e2, -⟩ := C39_forward_backward spR h0 h1 h2 (e ▸ ha) (good_zeros _) (good_zeros _)
    show spR.backward a >>= spR.forward = _
    rw [e1]; exact e2
  · intro f hf
    obtain ⟨p, q, hp, hq, rfl⟩ := hh f hf
    exact (backward3_acc g0 g1 g2 zP zI zJ zS hp).andThen (forward3_acc f0 f1 f2 zP zI zJ zS hq) nb

/-- C100: let `forward(backward(forward(x))) = forward(x)` for the exact space, as it is for all bases, so that a
round trip projects on the space. After any number `k ≥ 1` of round trips the grid values differ from the exact
projection by at most `(1 + L ε)^k - 1` times its maximum, where `L` is the gain and `ε` the error of one round
trip: the errors add up, the gains do not multiply. -/
theorem C100_space3_projection [Module ℝ P'] [Module ℝ I'] [Module ℝ J'] [Module ℝ S'] {sp : Space3 P I J S T A} {spR : Space3 P' I' J' S' T' A'} {a0 a1 a2 b0 b1 b2 : Amp} (f0 : ForwardAcc vJ vS sp.base0 spR.base0 a0) (f1 : ForwardAcc vI vJ sp.base1 spR.base1 a1) (f2 : ForwardAcc vP vI sp.base2 spR.base2 a2)
    (g0 : BackwardAcc vS vJ sp.base0 spR.base0 b0) (g1 : BackwardAcc vJ vI sp.base1 spR.base1 b1) (g2 : BackwardAcc vI vP sp.base2 spR.base2 b2) (h : (FwdBwd spR.base0 ∧ FwdBwd spR.base1 ∨ BwdFwd spR.base0 ∧ FwdBwd spR.base1 ∨ BwdFwd spR.base0 ∧ BwdFwd spR.base1) ∧ FwdBwd spR.base2)
    (l0 : LinOp ℝ spR.base0.forwardSlice spR.base0.lenPhys spR.base0.lenSpec) (m0 : LinOp ℝ spR.base0.backwardSlice spR.base0.lenSpec spR.base0.lenPhys) (l1 : LinOp ℝ spR.base1.forwardSlice spR.base1.lenPhys spR.base1.lenSpec) (m1 : LinOp ℝ spR.base1.backwardSlice spR.base1.lenSpec spR.base1.lenPhys) (l2 : LinOp ℝ spR.base2.forwardSlice spR.base2.lenPhys spR.base2.lenSpec) (m2 : LinOp ℝ spR.base2.backwardSlice spR.base2.lenSpec spR.base2.lenPhys)
    (zP : vP 0 = 0) (zI : vI 0 = 0) (zJ : vJ 0 = 0) (zS : vS 0 = 0) (uP : Function.Surjective vP) (uI : Function.Surjective vI) (uJ : Function.Surjective vJ) (uS : Function.Surjective vS) (hL : 1 ≤ (((a2.andThen a1).andThen a0).andThen ((b0.andThen b1).andThen b2)).gain)
    (hist : List (Arr P → Res (Arr P))) (hne : hist ≠ []) (hh : ∀ f ∈ hist, Pair (Forward3 sp) (Backward3 sp) f)
    {x : Arr P} {X : ℝ} (hx : Good x sp.shapePhysical) (hX : 0 ≤ X) (hb : MaxLe X (x.data.map vP)) :
    ∃ y v p, runAll hist x = ok y ∧ spR.forward (onArray vP x) = ok v ∧ spR.backward v = ok p ∧
      Good y sp.shapePhysical ∧ Good p sp.shapePhysical ∧
      MaxDist (((1 + (((a2.andThen a1).andThen a0).andThen ((b0.andThen b1).andThen b2)).gain * (((a2.andThen a1).andThen a0).andThen ((b0.andThen b1).andThen b2)).err) ^ hist.length - 1) * ((((a2.andThen a1).andThen a0).andThen ((b0.andThen b1).andThen b2)).gain * X)) (y.data.map vP) p.data := by
  have nf : ((a2.andThen a1).andThen a0).Nonneg := ((f2.2.1).andThen f1.2.1).andThen f0.2.1
  have nb : ((b0.andThen b1).andThen b2).Nonneg := ((g0.2.1).andThen g1.2.1).andThen g2.2.1
  have e : spR.shapePhysical = sp.shapePhysical := (by simp only [Space3.shapePhysical, f0.1.1, f0.1.2.1, f0.1.2.2, f1.1.1, f1.1.2.1, f1.1.2.2, f2.1.1, f2.1.2.1, f2.1.2.2] : sp.shapePhysical = spR.shapePhysical).symm
  have e' : sp.shapeSpectral = spR.shapeSpectral := by simp only [Space3.shapeSpectral, f0.1.1, f0.1.2.1, f0.1.2.2, f1.1.1, f1.1.2.1, f1.1.2.2, f2.1.1, f2.1.2.1, f2.1.2.2]
  have F := e'.symm ▸ e ▸ forward3_acc (f0.lipschitz l0 uJ) (f1.lipschitz l1 uI) (f2.lipschitz l2 uP) rfl rfl rfl rfl Forward3.serial
  have G := e'.symm ▸ e ▸ backward3_acc (g0.lipschitz m0 uS) (g1.lipschitz m1 uJ) (g2.lipschitz m2 uI) rfl rfl rfl rfl Backward3.serial
  have lip : AccurateOn id id (fun x => spR.forward x >>= spR.backward) (fun x => spR.forward x >>= spR.backward) sp.shapePhysical sp.shapePhysical
      (((a2.andThen a1).andThen a0).andThen ((b0.andThen b1).andThen b2)).gain 0 := by
    have := F.andThen G (by refine ⟨?_, ?_⟩ <;> simp only [Amp.andThen] <;> first | exact nf.1 | simp)
    simpa [Amp.andThen] using this
  have key : ∀ a, Good a sp.shapePhysical → ∃ v y, spR.forward a = ok v ∧ spR.backward v = ok y ∧ Good y sp.shapePhysical ∧ spR.forward y = ok v := by
    intro a ha
    rcases h with ⟨⟨h0, h1⟩ | ⟨h0, h1⟩ | ⟨h0, h1⟩, h2⟩
    · obtain ⟨-, v, -, e1, -, gv, -, -⟩ := F (onArray id a) a _ 0 (good_onArray id ha) ha (exists_maxLe a.data).choose_spec.1 le_rfl (exists_maxLe a.data).choose_spec.2 (by simpa [onArray] using MaxDist.refl)
      obtain ⟨y, e2, -, gy, e3, -⟩ := C39_forward_backward spR h0 h1 h2 (e' ▸ gv) (good_zeros _) (good_zeros _)
      exact ⟨v, y, e1, e2, e ▸ gy, e3⟩
    · obtain ⟨v, y, e1, -, e2, gy, e3⟩ := C39_forward_backward_forward_one spR h0 h1 h2 (e ▸ ha)
      exact ⟨v, y, e1, e2, e ▸ gy, e3⟩
    · obtain ⟨v, y, e1, -, e2, gy, e3⟩ := C39_forward_backward_forward_two spR h0 h1 h2 (e ▸ ha)
      exact ⟨v, y, e1, e2, e ▸ gy, e3⟩
  obtain ⟨y, p, e1, e2, gy, gp, dd⟩ := history_proj (v := vP) (MR := fun x => spR.forward x >>= spR.backward) (nf.andThen nb).2 hL lip
    (fun a ha => by
      obtain ⟨v, y, e1, e2, gy, e3⟩ := key a ha
      refine ⟨y, ?_, gy, ?_⟩
      · show spR.forward a >>= spR.backward = _
        rw [e1]; exact e2
      · show spR.forward y >>= spR.backward = _
        rw [e3]; exact e2) hist hne (fun f hf => by
      obtain ⟨p, q, hp, hq, rfl⟩ := hh f hf
      exact (forward3_acc f0 f1 f2 zP zI zJ zS hp).andThen (backward3_acc g0 g1 g2 zP zI zJ zS hq) nf) hx hX hb
  obtain ⟨v, p', k1, k2, -, -⟩ := key _ (good_onArray vP hx)
  have e2' : spR.forward (onArray vP x) >>= spR.backward = ok p := e2
  rw [k1] at e2'
  exact ⟨y, v, p, e1, k1, e2', gy, gp, dd⟩

end

section
variable {P I J S T A P' I' J' S' T' A' : Type} [Zero P] [Zero I] [Zero J] [Zero S] [Zero T] [NormedAddCommGroup P'] [NormedAddCommGroup I'] [NormedAddCommGroup J'] [NormedAddCommGroup S'] [NormedCommRing T']
  {vT : T → T'}

/-- C100: let `from_ortho(to_ortho(v)) = v` for the exact bases. After any number `k` of round trips through the
orthogonal space the coefficients have changed by at most `(1 + ε)^k - 1` times their maximum. -/
theorem C100_space3_ortho {sp : Space3 P I J S T A} {spR : Space3 P' I' J' S' T' A'} {a0 a1 a2 b0 b1 b2 : Amp} (f0 : ToOrthoAcc vT sp.base0 spR.base0 a0) (f1 : ToOrthoAcc vT sp.base1 spR.base1 a1) (f2 : ToOrthoAcc vT sp.base2 spR.base2 a2)
    (g0 : FromOrthoAcc vT sp.base0 spR.base0 b0) (g1 : FromOrthoAcc vT sp.base1 spR.base1 b1) (g2 : FromOrthoAcc vT sp.base2 spR.base2 b2) (h0 : FromTo spR.base0) (h1 : FromTo spR.base1) (h2 : FromTo spR.base2)
    (t0 : LinOp T' spR.base0.toOrthoSlice spR.base0.lenSpec spR.base0.lenOrth) (l0 : LinOp T' spR.base0.fromOrthoSlice spR.base0.lenOrth spR.base0.lenSpec) (t1 : LinOp T' spR.base1.toOrthoSlice spR.base1.lenSpec spR.base1.lenOrth) (l1 : LinOp T' spR.base1.fromOrthoSlice spR.base1.lenOrth spR.base1.lenSpec) (t2 : LinOp T' spR.base2.toOrthoSlice spR.base2.lenSpec spR.base2.lenOrth) (l2 : LinOp T' spR.base2.fromOrthoSlice spR.base2.lenOrth spR.base2.lenSpec) (zT : vT 0 = 0)
    (hist : List (Arr T → Res (Arr T))) (hh : ∀ f ∈ hist, Pair (ToOrtho3 sp) (FromOrtho3 sp) f)
    {x : Arr T} {X : ℝ} (hx : Good x sp.shapeSpectral) (hX : 0 ≤ X) (hb : MaxLe X (x.data.map vT)) :
    ∃ y, runAll hist x = ok y ∧ Good y sp.shapeSpectral ∧
      MaxDist (((1 + (((a0.andThen a1).andThen a2).andThen ((b0.andThen b1).andThen b2)).err) ^ hist.length - 1) * X) (y.data.map vT) (x.data.map vT) := by
  have nf : ((a0.andThen a1).andThen a2).Nonneg := ((f0.2.1).andThen f1.2.1).andThen f2.2.1
  have nb : ((b0.andThen b1).andThen b2).Nonneg := ((g0.2.1).andThen g1.2.1).andThen g2.2.1
  have FF : ∀ F, ToOrtho3 sp F → AccurateOn vT vT F spR.toOrtho sp.shapeSpectral sp.shapeSpectralOrtho ((a0.andThen a1).andThen a2).gain ((a0.andThen a1).andThen a2).err := by
    intro F h
    obtain ⟨c1, c2, c3⟩ := C96_space3_to_ortho sp spR f0 f1 f2 zT
    cases h with
    | serial => exact c1
    | par x0 x1 x2 => exact c2 _ _ _ x0 x1 x2
    | inplace ho => exact (c3 _ ho).1
    | inplacePar x0 x1 x2 ho => exact (c3 _ ho).2 _ _ _ x0 x1 x2
  have GG : ∀ F, FromOrtho3 sp F → AccurateOn vT vT F spR.fromOrtho sp.shapeSpectralOrtho sp.shapeSpectral ((b0.andThen b1).andThen b2).gain ((b0.andThen b1).andThen b2).err := by
    intro F h
    obtain ⟨c1, c2, c3⟩ := C96_space3_from_ortho sp spR g0 g1 g2 zT
    cases h with
    | serial => exact c1
    | par x0 x1 x2 => exact c2 _ _ _ x0 x1 x2
    | inplace ho => exact (c3 _ ho).1
    | inplacePar x0 x1 x2 ho => exact (c3 _ ho).2 _ _ _ x0 x1 x2
  refine history_id (v := vT) (L := (((a0.andThen a1).andThen a2).andThen ((b0.andThen b1).andThen b2)).gain) (MR := fun x => spR.toOrtho x >>= spR.fromOrtho) (nf.andThen nb).2 ?_ hist ?_ x X hx hX hb
  · intro a ha
    have e : sp.shapeSpectral = spR.shapeSpectral := by simp only [Space3.shapeSpectral, f0.1.1, f0.1.2.1, f0.1.2.2, f1.1.1, f1.1.2.1, f1.1.2.2, f2.1.1, f2.1.2.1, f2.1.2.2]
    obtain ⟨v, e1, -, -, e2, -⟩ := C39_from_ortho_to_ortho spR h0 h1 h2 t0 l0 t1 l1 t2 l2 (e ▸ ha) (good_zeros _) (good_zeros _)
    show spR.toOrtho a >>= spR.fromOrtho = _
    rw [e1]; exact e2
  · intro f hf
    obtain ⟨p, q, hp, hq, rfl⟩ := hh f hf
    exact (FF p hp).andThen (GG q hq) nf

end

end Verif.Props
