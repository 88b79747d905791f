/-
Property C66 in two and three dimensions: spaces with a real Fourier axis compute half of the spectrum that the space
with complex Fourier axes computes, and the other half is its mirror image.
-/
import Verif.Proof.Expand
import Verif.Props.Tensor
import Verif.Props.FourierRel
import Verif.Props.Calculus2
import Verif.Spec.Parts

namespace Verif.Props
open Res Spec Finset

/-! ### One axis -/

theorem dft_conj (n k : ℕ) (hk : k < n) (x : ℕ → ℂ) :
    dft (-1) n (fun j => (starRingEnd ℂ) (x j)) k = (starRingEnd ℂ) (dft (-1) n x ((n - k) % n)) := by
  have e : ∀ j, twiddle (-1) n j ((n - k) % n) = (starRingEnd ℂ) (twiddle (-1) n j k) := fun j => by
    rcases Nat.eq_zero_or_pos k with rfl | hk0
    · rw [Nat.sub_zero, Nat.mod_self, twiddle_comm, twiddle_zero, map_one]
    · rw [Nat.mod_eq_of_lt (by omega)]
      have h1 := twiddle_reflect n k j (by omega) (by omega) (-1)
      have h2 := conj_twiddle n k j (-1)
      rw [twiddle_comm, twiddle_comm _ _ j k]
      push_cast at h1 h2
      rw [h1, h2]
  unfold dft
  rw [map_sum]
  refine Finset.sum_congr rfl fun j _ => ?_
  rw [map_mul, e, Complex.conj_conj]

theorem c2c_conj (n : ℕ) (b : Base ℂ ℂ ℂ) (hb : IsC2c n b) (x X : List ℂ) (hx : x.length = n)
    (h : Returns b.forwardSlice n x X) :
    ∃ X', Returns b.forwardSlice n (x.map (starRingEnd ℂ)) X' ∧
      ∀ k < n, nth X' k = (starRingEnd ℂ) (nth X ((n - k) % n)) := by
  obtain ⟨hn, b0, hb0, rfl⟩ := hb
  obtain rfl := c2c_inv hb0
  have hx' : (x.map (starRingEnd ℂ)).length = n := by simpa using hx
  refine ⟨fftFwd (x.map (starRingEnd ℂ)), fun out ho => wp_c2c_forward n _ out hx' ho, fun k hk => ?_⟩
  have e := Res.ok.inj ((h (List.replicate n 0) (by simp)).symm.trans (wp_c2c_forward n x _ hx (by simp)))
  rw [e, nth_fftFwd _ (by omega), nth_fftFwd _ (by rw [hx]; exact Nat.mod_lt _ hn), hx', hx, ← dft_conj n k hk]
  exact dft_congr k fun j hj => nth_map _ _ _ (by omega)

theorem r2c_half (n : ℕ) (b : Base ℝ ℂ ℂ) (hb : IsR2c n b) (c : Base ℂ ℂ ℂ) (hc : IsC2c n c) (y : List ℝ)
    (hy : y.length = n) (Y Y' : List ℂ) (h : Returns b.forwardSlice (n / 2 + 1) y Y)
    (h' : Returns c.forwardSlice n (y.map Complex.ofReal) Y') : ∀ l < n / 2 + 1, nth Y l = nth Y' l := by
  obtain ⟨hn, b0, hb0, rfl⟩ := hb
  obtain rfl := r2c_inv hb0
  obtain ⟨-, c0, hc0, rfl⟩ := hc
  obtain rfl := c2c_inv hc0
  obtain ⟨d, d', e, e', hd, -⟩ := C66_forward n hn ⟨n, n / 2 + 1⟩ rfl ⟨n, n⟩ rfl y (List.replicate (n / 2 + 1) 0)
    (List.replicate n 0) hy (by simp [R2c.lenSpec]) (by simp [C2c.lenSpec])
  obtain rfl := Res.ok.inj ((h (List.replicate (n / 2 + 1) 0) (by simp)).symm.trans e)
  obtain rfl := Res.ok.inj ((h' (List.replicate n 0) (by simp)).symm.trans e')
  intro l hl
  rw [hd]
  unfold nth
  rw [List.getD_eq_getElem?_getD, List.getD_eq_getElem?_getD, List.getElem?_take_of_lt hl]

theorem c2c_lens {n : ℕ} {b : Base ℂ ℂ ℂ} (h : IsC2c n b) : b.lenPhys = n ∧ b.lenSpec = n := by
  obtain ⟨hn, b0, hb, rfl⟩ := h
  obtain rfl := c2c_inv hb
  exact ⟨rfl, rfl⟩

theorem r2c_lens {n : ℕ} {b : Base ℝ ℂ ℂ} (h : IsR2c n b) : b.lenPhys = n ∧ b.lenSpec = n / 2 + 1 := by
  obtain ⟨hn, b0, hb, rfl⟩ := h
  obtain rfl := r2c_inv hb
  exact ⟨rfl, rfl⟩

/-! ### Arrays -/

theorem good_onArray {S T : Type} (h : S → T) {a : Arr S} {sh : List ℕ} (ha : Good a sh) : Good (onArray h a) sh :=
  ⟨by have := ha.1; simpa [Arr.WF, onArray] using this, ha.2.1, ha.2.2⟩

theorem at_onArray {S T : Type} [Zero S] [Zero T] (h : S → T) (h0 : h 0 = 0) (a : Arr S) (idx : List ℕ) :
    at_ (onArray h a) idx = h (at_ a idx) := by
  show nth (a.data.map h) (flat a.shape idx) = h (nth a.data (flat a.shape idx))
  rcases Nat.lt_or_ge (flat a.shape idx) a.data.length with hl | hl
  · exact nth_map _ _ _ hl
  · rw [nth_of_le _ _ (by simpa using hl), nth_of_le _ _ hl, h0]

theorem conj_real (a : Arr ℝ) : onArray (starRingEnd ℂ) (onArray Complex.ofReal a) = onArray Complex.ofReal a := by
  unfold onArray
  rw [List.map_map]
  exact congrArg (fun d => Arr.mk a.shape d a.std) (List.map_congr_left fun t _ => Complex.conj_ofReal t)

/-- An array that equals its conjugate is an array of real numbers. -/
theorem real_of_conj {a : Arr ℂ} {sh : List ℕ} (ha : Good a sh) (h : onArray (starRingEnd ℂ) a = a) :
    onArray Complex.ofReal (onArray Complex.re a) = a ∧ Good (onArray Complex.re a) sh := by
  refine ⟨?_, good_onArray _ ha⟩
  obtain ⟨s, d, l⟩ := a
  have hd : d.map (starRingEnd ℂ) = d := congrArg Arr.data h
  show Arr.mk s ((d.map Complex.re).map Complex.ofReal) l = Arr.mk s d l
  rw [List.map_map]
  refine congrArg (fun d => Arr.mk s d l) ?_
  conv_rhs => rw [← List.map_id d]
  refine List.map_congr_left fun t ht => ?_
  have h2 : (starRingEnd ℂ) t = t := by
    rw [show d = d.map id from (List.map_id d).symm] at hd
    rw [List.map_map] at hd
    exact List.map_inj_left.1 hd t ht
  exact Complex.conj_eq_iff_re.1 h2

theorem same_c2c {n : ℕ} {b c : Base ℂ ℂ ℂ} (hb : IsC2c n b) (hc : IsC2c n c) : b = c := by
  obtain ⟨-, b, hb, eb⟩ := hb
  obtain ⟨-, b', hb', eb'⟩ := hc
  rw [eb, eb', c2c_inv hb, c2c_inv hb']

/-! ### Two dimensions -/

/-- Conjugate data have conjugate, mirrored coefficients. -/
theorem c2c2_conj (n0 n1 : ℕ) (sc : Space2 ℂ ℂ ℂ ℂ) (c0 : IsC2c n0 sc.base0) (c1 : IsC2c n1 sc.base1) (a : Arr ℂ)
    (ha : Good a [n0, n1]) :
    ∃ v v', sc.forward a = ok v ∧ sc.forward (onArray (starRingEnd ℂ) a) = ok v' ∧ Good v [n0, n1] ∧
      Good v' [n0, n1] ∧ ∀ k < n0, ∀ l < n1,
        at_ v' [k, l] = (starRingEnd ℂ) (at_ v [(n0 - k) % n0, (n1 - l) % n1]) := by
  obtain ⟨p0, s0⟩ := c2c_lens c0
  obtain ⟨p1, s1⟩ := c2c_lens c1
  have F := ((C110_spaces2 n0 n1).2.2.2 sc c0 c1).1
  unfold ForwardFactors2 at F
  rw [p0, s0, p1, s1] at F
  have L0 := c0.fwdLin
  have L1 := c1.fwdLin
  rw [p0, s0] at L0
  rw [p1, s1] at L1
  obtain ⟨x, y, lx, ly, ex⟩ := expand2 (R := ℝ) n0 n1 a
  have lx' : ∀ r, ((x r).map Complex.ofReal).length = n0 := fun r => by rw [List.length_map, lx]
  choose X eX using fun r => ret_ex L0 (lx' r)
  choose Y eY using fun r => ret_ex L1 (ly r)
  choose X' eX' hX' using fun r => c2c_conj n0 _ c0 _ (X r) (lx' r) (eX r)
  choose Y' eY' hY' using fun r => c2c_conj n1 _ c1 _ (Y r) (ly r) (eY r)
  have hxr : ∀ r, ((x r).map Complex.ofReal).map (starRingEnd ℂ) = (x r).map Complex.ofReal := fun r => by
    rw [List.map_map]
    exact List.map_congr_left fun t _ => Complex.conj_ofReal t
  have mid : ∀ l : List ℂ, l.map (algebraMap ℂ ℂ) = l := fun l => List.map_id l
  obtain ⟨v, hv, sv⟩ := F n0 (fun r => (x r).map Complex.ofReal) y X Y
    (fun r _ => ⟨lx' r, ly r, by rw [mid]; exact eX r, eY r⟩) a
    ⟨ha, fun i hi j hj => by
      rw [ex i hi j hj]
      refine Finset.sum_congr rfl fun r _ => ?_
      dsimp only
      rw [nth_map _ _ _ (by rw [lx]; exact hi), Complex.coe_smul]⟩
  obtain ⟨v', hv', sv'⟩ := F n0 (fun r => (x r).map Complex.ofReal) (fun r => (y r).map (starRingEnd ℂ)) X' Y'
    (fun r _ => ⟨lx' r, by rw [List.length_map, ly], by rw [mid, ← hxr]; exact eX' r, eY' r⟩)
    (onArray (starRingEnd ℂ) a)
    ⟨good_onArray _ ha, fun i hi j hj => by
      rw [at_onArray _ (map_zero _), ex i hi j hj, map_sum]
      refine Finset.sum_congr rfl fun r _ => ?_
      dsimp only
      rw [nth_map _ _ _ (by rw [lx]; exact hi), nth_map _ _ _ (by rw [ly]; exact hj), ← Complex.coe_smul, smul_eq_mul,
        smul_eq_mul, map_mul, Complex.conj_ofReal]⟩
  refine ⟨v, v', hv, hv', sv.1, sv'.1, fun k hk l hl => ?_⟩
  rw [sv.2 _ (Nat.mod_lt _ (by omega)) _ (Nat.mod_lt _ (by omega)), sv'.2 k hk l hl, map_sum]
  refine Finset.sum_congr rfl fun r _ => ?_
  dsimp only
  rw [hX' r k hk, hY' r l hl, smul_eq_mul, smul_eq_mul, map_mul]

/-- C66 in two dimensions, `forward`: for real data the space `fourier_c2c × fourier_r2c` returns the first half of
the coefficients which `fourier_c2c × fourier_c2c` returns; those have the symmetry of real data. -/
theorem C66_space2_forward (n0 n1 : ℕ) (sp : Space2 ℝ ℂ ℂ ℂ) (sc : Space2 ℂ ℂ ℂ ℂ) (h0 : IsC2c n0 sp.base0)
    (h1 : IsR2c n1 sp.base1) (c0 : IsC2c n0 sc.base0) (c1 : IsC2c n1 sc.base1) (a : Arr ℝ) (ha : Good a [n0, n1]) :
    ∃ v v', sp.forward a = ok v ∧ sc.forward (onArray Complex.ofReal a) = ok v' ∧ Good v [n0, n1 / 2 + 1] ∧
      Good v' [n0, n1] ∧ (∀ k < n0, ∀ l < n1 / 2 + 1, at_ v [k, l] = at_ v' [k, l]) ∧
      ∀ k < n0, ∀ l < n1, at_ v' [(n0 - k) % n0, (n1 - l) % n1] = (starRingEnd ℂ) (at_ v' [k, l]) := by
  obtain ⟨w, w', hw, hw', gw, -, hc⟩ := c2c2_conj n0 n1 sc c0 c1 _ (good_onArray Complex.ofReal ha)
  rw [conj_real, hw] at hw'
  obtain rfl := Res.ok.inj hw'
  obtain ⟨p0, s0⟩ := c2c_lens h0
  obtain ⟨p1, s1⟩ := r2c_lens h1
  obtain ⟨p0', s0'⟩ := c2c_lens c0
  obtain ⟨p1', s1'⟩ := c2c_lens c1
  have F := ((C110_spaces2 n0 n1).2.2.1 sp h0 h1).1
  have G := ((C110_spaces2 n0 n1).2.2.2 sc c0 c1).1
  unfold ForwardFactors2 at F G
  rw [p0, s0, p1, s1] at F
  rw [p0', s0', p1', s1'] at G
  have L0 := h0.fwdLin
  have L1 := h1.fwdLin
  have L1' := c1.fwdLin
  rw [p0, s0] at L0
  rw [p1, s1] at L1
  rw [p1', s1'] at L1'
  obtain ⟨x, y, lx, ly, ex⟩ := expand2 (R := ℝ) n0 n1 a
  have lx' : ∀ r, ((x r).map Complex.ofReal).length = n0 := fun r => by rw [List.length_map, lx]
  choose X eX using fun r => ret_ex L0 (lx' r)
  choose Y eY using fun r => ret_ex L1 (ly r)
  choose Y' eY' using fun r => ret_ex L1' (x := (y r).map Complex.ofReal) (by rw [List.length_map, ly])
  have mid : ∀ l : List ℂ, l.map (algebraMap ℂ ℂ) = l := fun l => List.map_id l
  obtain ⟨v, hv, sv⟩ := F n0 x y X Y (fun r _ => ⟨lx r, ly r, eX r, eY r⟩) a ⟨ha, fun i hi j hj => ex i hi j hj⟩
  obtain ⟨v', hv', sv'⟩ := G n0 (fun r => (x r).map Complex.ofReal) (fun r => (y r).map Complex.ofReal) X Y'
    (fun r _ => ⟨lx' r, by rw [List.length_map, ly], by rw [mid, ← same_c2c h0 c0]; exact eX r, eY' r⟩)
    (onArray Complex.ofReal a)
    ⟨good_onArray _ ha, fun i hi j hj => by
      rw [at_onArray _ Complex.ofReal_zero, ex i hi j hj, Complex.ofReal_sum]
      refine Finset.sum_congr rfl fun r _ => ?_
      dsimp only
      rw [nth_map _ _ _ (by rw [lx]; exact hi), nth_map _ _ _ (by rw [ly]; exact hj), smul_eq_mul, smul_eq_mul,
        Complex.ofReal_mul]⟩
  obtain rfl := Res.ok.inj (hw.symm.trans hv')
  have hn1 := h1.1
  refine ⟨v, w, hv, hw, sv.1, gw, fun k hk l hl => ?_, fun k hk l hl => ?_⟩
  · rw [sv.2 k hk l hl, sv'.2 k hk l (by omega)]
    refine Finset.sum_congr rfl fun r _ => ?_
    dsimp only
    rw [r2c_half n1 _ h1 _ c1 (y r) (ly r) (Y r) (Y' r) (eY r) (eY' r) l hl]
  · rw [hc k hk l hl, Complex.conj_conj]

/-- C66 in two dimensions, `backward`. -/
theorem C66_space2_backward (n0 n1 : ℕ) (sp : Space2 ℝ ℂ ℂ ℂ) (sc : Space2 ℂ ℂ ℂ ℂ) (h0 : IsC2c n0 sp.base0)
    (h1 : IsR2c n1 sp.base1) (c0 : IsC2c n0 sc.base0) (c1 : IsC2c n1 sc.base1)
    (v v' : Arr ℂ) (hv : Good v [n0, n1 / 2 + 1]) (hv' : Good v' [n0, n1])
    (e : ∀ k < n0, ∀ l < n1 / 2 + 1, at_ v [k, l] = at_ v' [k, l])
    (hsym : ∀ k < n0, ∀ l < n1,
      at_ v' [(n0 - k) % n0, (n1 - l) % n1] = (starRingEnd ℂ) (at_ v' [k, l])) :
    ∃ a, sp.backward v = ok a ∧ sc.backward v' = ok (onArray Complex.ofReal a) ∧ Good a [n0, n1] := by
  obtain ⟨p0, s0⟩ := c2c_lens h0
  obtain ⟨p1, s1⟩ := r2c_lens h1
  obtain ⟨p0', s0'⟩ := c2c_lens c0
  obtain ⟨p1', s1'⟩ := c2c_lens c1
  have shp : sp.shapePhysical = [n0, n1] := by
    show [sp.base0.lenPhys, sp.base1.lenPhys] = _; rw [p0, p1]
  have shs : sp.shapeSpectral = [n0, n1 / 2 + 1] := by
    show [sp.base0.lenSpec, sp.base1.lenSpec] = _; rw [s0, s1]
  have chp : sc.shapePhysical = [n0, n1] := by
    show [sc.base0.lenPhys, sc.base1.lenPhys] = _; rw [p0', p1']
  have chs : sc.shapeSpectral = [n0, n1] := by
    show [sc.base0.lenSpec, sc.base1.lenSpec] = _; rw [s0', s1']
  -- the complex data and their conjugates
  obtain ⟨a', ha', -, ga', fa', -⟩ := C36_forward_backward sc c0.fwdBwd c1.fwdBwd (v := v')
    (by rw [chs]; exact hv') (good_fill 0 _) (good_fill 0 _)
  rw [chp] at ga'
  obtain ⟨w, w', hw, hw', gw, gw', hc⟩ := c2c2_conj n0 n1 sc c0 c1 a' ga'
  obtain rfl := Res.ok.inj (fa'.symm.trans hw)
  have ew : w' = v' := good_ext2 gw' hv' fun k hk l hl => by
    rw [hc k hk l hl, hsym k hk l hl, Complex.conj_conj]
  rw [ew] at hw'
  have back : ∀ b : Arr ℂ, Good b [n0, n1] → sc.forward b = ok v' → sc.backward v' = ok b := fun b hb hf => by
    obtain ⟨u, hu, -, -, hub, -⟩ := C36_backward_forward sc c0.bwdFwd c1.bwdFwd (x := b)
      (by rw [chp]; exact hb) (good_fill 0 _) (good_fill 0 _)
    rw [Res.ok.inj (hu.symm.trans hf)] at hub
    exact hub
  have ec : onArray (starRingEnd ℂ) a' = a' :=
    Res.ok.inj ((back _ (good_onArray _ ga') hw').symm.trans ha')
  -- they are real
  obtain ⟨er, ga⟩ := real_of_conj ga' ec
  set a := onArray Complex.re a' with hadef
  obtain ⟨u, u', hu, hu', gu, gu', eu, -⟩ := C66_space2_forward n0 n1 sp sc h0 h1 c0 c1 a ga
  rw [er, fa'] at hu'
  obtain rfl := Res.ok.inj hu'
  have euv : u = v := good_ext2 gu hv fun k hk l hl => by rw [eu k hk l hl, e k hk l hl]
  obtain ⟨t, ht, -, -, htb, -⟩ := C36_backward_forward sp h0.bwdFwd h1.bwdFwd (x := a)
    (by rw [shp]; exact ga) (good_fill 0 _) (good_fill 0 _)
  rw [Res.ok.inj (ht.symm.trans hu), euv] at htb
  exact ⟨a, htb, by rw [er]; exact ha', ga⟩

/-! ### Three dimensions -/

theorem c2c3_conj (n0 n1 n2 : ℕ) (sc : Space3 ℂ ℂ ℂ ℂ ℂ) (c0 : IsC2c n0 sc.base0) (c1 : IsC2c n1 sc.base1)
    (c2 : IsC2c n2 sc.base2) (a : Arr ℂ) (ha : Good a [n0, n1, n2]) :
    ∃ v v', sc.forward a = ok v ∧ sc.forward (onArray (starRingEnd ℂ) a) = ok v' ∧ Good v [n0, n1, n2] ∧
      Good v' [n0, n1, n2] ∧ ∀ k < n0, ∀ l < n1, ∀ m < n2,
        at_ v' [k, l, m] = (starRingEnd ℂ) (at_ v [(n0 - k) % n0, (n1 - l) % n1, (n2 - m) % n2]) := by
  obtain ⟨p0, s0⟩ := c2c_lens c0
  obtain ⟨p1, s1⟩ := c2c_lens c1
  obtain ⟨p2, s2⟩ := c2c_lens c2
  have F := ((C110_spaces3 n0 n1 n2).2.2.2.2 sc c0 c1 c2).1
  unfold ForwardFactors3 at F
  rw [p0, s0, p1, s1, p2, s2] at F
  have L0 := c0.fwdLin
  have L1 := c1.fwdLin
  have L2 := c2.fwdLin
  rw [p0, s0] at L0
  rw [p1, s1] at L1
  rw [p2, s2] at L2
  obtain ⟨x, y, z, lx, ly, lz, ex⟩ := expand3 (R := ℝ) n0 n1 n2 a
  have lx' : ∀ r, ((x r).map Complex.ofReal).length = n0 := fun r => by rw [List.length_map, lx]
  have ly' : ∀ r, ((y r).map Complex.ofReal).length = n1 := fun r => by rw [List.length_map, ly]
  choose X eX using fun r => ret_ex L0 (lx' r)
  choose Y eY using fun r => ret_ex L1 (ly' r)
  choose Z eZ using fun r => ret_ex L2 (lz r)
  choose X' eX' hX' using fun r => c2c_conj n0 _ c0 _ (X r) (lx' r) (eX r)
  choose Y' eY' hY' using fun r => c2c_conj n1 _ c1 _ (Y r) (ly' r) (eY r)
  choose Z' eZ' hZ' using fun r => c2c_conj n2 _ c2 _ (Z r) (lz r) (eZ r)
  have hxr : ∀ l : List ℝ, (l.map Complex.ofReal).map (starRingEnd ℂ) = l.map Complex.ofReal := fun l => by
    rw [List.map_map]
    exact List.map_congr_left fun t _ => Complex.conj_ofReal t
  have mid : ∀ l : List ℂ, l.map (algebraMap ℂ ℂ) = l := fun l => List.map_id l
  have mid2 : ∀ l : List ℂ, (l.map fun t => algebraMap ℂ ℂ (algebraMap ℂ ℂ t)) = l := fun l => List.map_id l
  obtain ⟨v, hv, sv⟩ := F (n0 * n1) (fun r => (x r).map Complex.ofReal) (fun r => (y r).map Complex.ofReal) z X Y Z
    (fun r _ => ⟨lx' r, ly' r, lz r, by rw [mid2]; exact eX r, by rw [mid]; exact eY r, eZ r⟩) a
    ⟨ha, fun i hi j hj k hk => by
      rw [ex i hi j hj k hk]
      refine Finset.sum_congr rfl fun r _ => ?_
      dsimp only
      rw [nth_map _ _ _ (by rw [lx]; exact hi), nth_map _ _ _ (by rw [ly]; exact hj), ← Complex.ofReal_mul,
        Complex.coe_smul]⟩
  obtain ⟨v', hv', sv'⟩ := F (n0 * n1) (fun r => (x r).map Complex.ofReal) (fun r => (y r).map Complex.ofReal)
    (fun r => (z r).map (starRingEnd ℂ)) X' Y' Z'
    (fun r _ => ⟨lx' r, ly' r, by rw [List.length_map, lz], by rw [mid2, ← hxr]; exact eX' r,
      by rw [mid, ← hxr]; exact eY' r, eZ' r⟩)
    (onArray (starRingEnd ℂ) a)
    ⟨good_onArray _ ha, fun i hi j hj k hk => by
      rw [at_onArray _ (map_zero _), ex i hi j hj k hk, map_sum]
      refine Finset.sum_congr rfl fun r _ => ?_
      dsimp only
      rw [nth_map _ _ _ (by rw [lx]; exact hi), nth_map _ _ _ (by rw [ly]; exact hj),
        nth_map _ _ _ (by rw [lz]; exact hk), ← Complex.coe_smul, smul_eq_mul,
        smul_eq_mul, map_mul, Complex.conj_ofReal, Complex.ofReal_mul]⟩
  refine ⟨v, v', hv, hv', sv.1, sv'.1, fun k hk l hl m hm => ?_⟩
  rw [sv.2 _ (Nat.mod_lt _ (by omega)) _ (Nat.mod_lt _ (by omega)) _ (Nat.mod_lt _ (by omega)), sv'.2 k hk l hl m hm,
    map_sum]
  refine Finset.sum_congr rfl fun r _ => ?_
  dsimp only
  rw [hX' r k hk, hY' r l hl, hZ' r m hm]
  simp only [smul_eq_mul, map_mul]

/-- C66 in three dimensions, `forward`. -/
theorem C66_space3_forward (n0 n1 n2 : ℕ) (sp : Space3 ℝ ℂ ℂ ℂ ℂ) (sc : Space3 ℂ ℂ ℂ ℂ ℂ) (h0 : IsC2c n0 sp.base0)
    (h1 : IsC2c n1 sp.base1) (h2 : IsR2c n2 sp.base2) (c0 : IsC2c n0 sc.base0) (c1 : IsC2c n1 sc.base1)
    (c2 : IsC2c n2 sc.base2) (a : Arr ℝ) (ha : Good a [n0, n1, n2]) :
    ∃ v v', sp.forward a = ok v ∧ sc.forward (onArray Complex.ofReal a) = ok v' ∧ Good v [n0, n1, n2 / 2 + 1] ∧
      Good v' [n0, n1, n2] ∧ (∀ k < n0, ∀ l < n1, ∀ m < n2 / 2 + 1, at_ v [k, l, m] = at_ v' [k, l, m]) ∧
      ∀ k < n0, ∀ l < n1, ∀ m < n2,
        at_ v' [(n0 - k) % n0, (n1 - l) % n1, (n2 - m) % n2] = (starRingEnd ℂ) (at_ v' [k, l, m]) := by
  obtain ⟨w, w', hw, hw', gw, -, hc⟩ := c2c3_conj n0 n1 n2 sc c0 c1 c2 _ (good_onArray Complex.ofReal ha)
  rw [conj_real, hw] at hw'
  obtain rfl := Res.ok.inj hw'
  obtain ⟨p0, s0⟩ := c2c_lens h0
  obtain ⟨p1, s1⟩ := c2c_lens h1
  obtain ⟨p2, s2⟩ := r2c_lens h2
  obtain ⟨p0', s0'⟩ := c2c_lens c0
  obtain ⟨p1', s1'⟩ := c2c_lens c1
  obtain ⟨p2', s2'⟩ := c2c_lens c2
  have F := ((C110_spaces3 n0 n1 n2).2.2.2.1 sp h0 h1 h2).1
  have G := ((C110_spaces3 n0 n1 n2).2.2.2.2 sc c0 c1 c2).1
  unfold ForwardFactors3 at F G
  rw [p0, s0, p1, s1, p2, s2] at F
  rw [p0', s0', p1', s1', p2', s2'] at G
  have L0 := h0.fwdLin
  have L1 := h1.fwdLin
  have L2 := h2.fwdLin
  have L2' := c2.fwdLin
  rw [p0, s0] at L0
  rw [p1, s1] at L1
  rw [p2, s2] at L2
  rw [p2', s2'] at L2'
  obtain ⟨x, y, z, lx, ly, lz, ex⟩ := expand3 (R := ℝ) n0 n1 n2 a
  have lx' : ∀ r, ((x r).map Complex.ofReal).length = n0 := fun r => by rw [List.length_map, lx]
  have ly' : ∀ r, ((y r).map Complex.ofReal).length = n1 := fun r => by rw [List.length_map, ly]
  choose X eX using fun r => ret_ex L0 (lx' r)
  choose Y eY using fun r => ret_ex L1 (ly' r)
  choose Z eZ using fun r => ret_ex L2 (lz r)
  choose Z' eZ' using fun r => ret_ex L2' (x := (z r).map Complex.ofReal) (by rw [List.length_map, lz])
  have mid : ∀ l : List ℂ, l.map (algebraMap ℂ ℂ) = l := fun l => List.map_id l
  have mid2 : ∀ l : List ℂ, (l.map fun t => algebraMap ℂ ℂ (algebraMap ℂ ℂ t)) = l := fun l => List.map_id l
  obtain ⟨v, hv, sv⟩ := F (n0 * n1) x y z X Y Z (fun r _ => ⟨lx r, ly r, lz r, eX r, eY r, eZ r⟩) a
    ⟨ha, fun i hi j hj k hk => ex i hi j hj k hk⟩
  obtain ⟨v', hv', sv'⟩ := G (n0 * n1) (fun r => (x r).map Complex.ofReal) (fun r => (y r).map Complex.ofReal)
    (fun r => (z r).map Complex.ofReal) X Y Z'
    (fun r _ => ⟨lx' r, ly' r, by rw [List.length_map, lz], by rw [mid2, ← same_c2c h0 c0]; exact eX r,
      by rw [mid, ← same_c2c h1 c1]; exact eY r, eZ' r⟩)
    (onArray Complex.ofReal a)
    ⟨good_onArray _ ha, fun i hi j hj k hk => by
      rw [at_onArray _ Complex.ofReal_zero, ex i hi j hj k hk, Complex.ofReal_sum]
      refine Finset.sum_congr rfl fun r _ => ?_
      dsimp only
      rw [nth_map _ _ _ (by rw [lx]; exact hi), nth_map _ _ _ (by rw [ly]; exact hj),
        nth_map _ _ _ (by rw [lz]; exact hk), smul_eq_mul, smul_eq_mul, Complex.ofReal_mul, Complex.ofReal_mul]⟩
  obtain rfl := Res.ok.inj (hw.symm.trans hv')
  have hn2 := h2.1
  refine ⟨v, w, hv, hw, sv.1, gw, fun k hk l hl m hm => ?_, fun k hk l hl m hm => ?_⟩
  · rw [sv.2 k hk l hl m hm, sv'.2 k hk l hl m (by omega)]
    refine Finset.sum_congr rfl fun r _ => ?_
    dsimp only
    rw [r2c_half n2 _ h2 _ c2 (z r) (lz r) (Z r) (Z' r) (eZ r) (eZ' r) m hm]
  · rw [hc k hk l hl m hm, Complex.conj_conj]

/-- C66 in three dimensions, `backward`. -/
theorem C66_space3_backward (n0 n1 n2 : ℕ) (sp : Space3 ℝ ℂ ℂ ℂ ℂ) (sc : Space3 ℂ ℂ ℂ ℂ ℂ) (h0 : IsC2c n0 sp.base0)
    (h1 : IsC2c n1 sp.base1) (h2 : IsR2c n2 sp.base2) (c0 : IsC2c n0 sc.base0) (c1 : IsC2c n1 sc.base1)
    (c2 : IsC2c n2 sc.base2) (v v' : Arr ℂ) (hv : Good v [n0, n1, n2 / 2 + 1]) (hv' : Good v' [n0, n1, n2])
    (e : ∀ k < n0, ∀ l < n1, ∀ m < n2 / 2 + 1, at_ v [k, l, m] = at_ v' [k, l, m])
    (hsym : ∀ k < n0, ∀ l < n1, ∀ m < n2,
      at_ v' [(n0 - k) % n0, (n1 - l) % n1, (n2 - m) % n2] = (starRingEnd ℂ) (at_ v' [k, l, m])) :
    ∃ a, sp.backward v = ok a ∧ sc.backward v' = ok (onArray Complex.ofReal a) ∧ Good a [n0, n1, n2] := by
  obtain ⟨p0, s0⟩ := c2c_lens h0
  obtain ⟨p1, s1⟩ := c2c_lens h1
  obtain ⟨p2, s2⟩ := r2c_lens h2
  obtain ⟨p0', s0'⟩ := c2c_lens c0
  obtain ⟨p1', s1'⟩ := c2c_lens c1
  obtain ⟨p2', s2'⟩ := c2c_lens c2
  have shp : sp.shapePhysical = [n0, n1, n2] := by
    show [sp.base0.lenPhys, sp.base1.lenPhys, sp.base2.lenPhys] = _; rw [p0, p1, p2]
  have shs : sp.shapeSpectral = [n0, n1, n2 / 2 + 1] := by
    show [sp.base0.lenSpec, sp.base1.lenSpec, sp.base2.lenSpec] = _; rw [s0, s1, s2]
  have chp : sc.shapePhysical = [n0, n1, n2] := by
    show [sc.base0.lenPhys, sc.base1.lenPhys, sc.base2.lenPhys] = _; rw [p0', p1', p2']
  have chs : sc.shapeSpectral = [n0, n1, n2] := by
    show [sc.base0.lenSpec, sc.base1.lenSpec, sc.base2.lenSpec] = _; rw [s0', s1', s2']
  -- the complex data and their conjugates
  obtain ⟨a', ha', -, ga', fa', -⟩ := C39_forward_backward sc c0.fwdBwd c1.fwdBwd c2.fwdBwd (v := v')
    (by rw [chs]; exact hv') (good_fill 0 _) (good_fill 0 _)
  rw [chp] at ga'
  obtain ⟨w, w', hw, hw', gw, gw', hc⟩ := c2c3_conj n0 n1 n2 sc c0 c1 c2 a' ga'
  obtain rfl := Res.ok.inj (fa'.symm.trans hw)
  have ew : w' = v' := good_ext3 gw' hv' fun k hk l hl m hm => by
    rw [hc k hk l hl m hm, hsym k hk l hl m hm, Complex.conj_conj]
  rw [ew] at hw'
  have back : ∀ b : Arr ℂ, Good b [n0, n1, n2] → sc.forward b = ok v' → sc.backward v' = ok b := fun b hb hf => by
    obtain ⟨u, hu, -, -, hub, -⟩ := C39_backward_forward sc c0.bwdFwd c1.bwdFwd c2.bwdFwd (x := b)
      (by rw [chp]; exact hb) (good_fill 0 _) (good_fill 0 _)
    rw [Res.ok.inj (hu.symm.trans hf)] at hub
    exact hub
  have ec : onArray (starRingEnd ℂ) a' = a' :=
    Res.ok.inj ((back _ (good_onArray _ ga') hw').symm.trans ha')
  -- they are real
  obtain ⟨er, ga⟩ := real_of_conj ga' ec
  set a := onArray Complex.re a' with hadef
  obtain ⟨u, u', hu, hu', gu, gu', eu, -⟩ := C66_space3_forward n0 n1 n2 sp sc h0 h1 h2 c0 c1 c2 a ga
  rw [er, fa'] at hu'
  obtain rfl := Res.ok.inj hu'
  have euv : u = v := good_ext3 gu hv fun k hk l hl m hm => by rw [eu k hk l hl m hm, e k hk l hl m hm]
  obtain ⟨t, ht, -, -, htb, -⟩ := C39_backward_forward sp h0.bwdFwd h1.bwdFwd h2.bwdFwd (x := a)
    (by rw [shp]; exact ga) (good_fill 0 _) (good_fill 0 _)
  rw [Res.ok.inj (ht.symm.trans hu), euv] at htb
  exact ⟨a, htb, by rw [er]; exact ha', ga⟩

/-- The hypotheses are met: `fourier_c2c(4) × fourier_r2c(6)`, the data 0, 1, …, 23, and (for `backward`) their
coefficients. -/
example : ∃ (sp : Space2 ℝ ℂ ℂ ℂ) (sc : Space2 ℂ ℂ ℂ ℂ) (a : Arr ℝ) (v v' : Arr ℂ), IsC2c 4 sp.base0 ∧
    IsR2c 6 sp.base1 ∧ IsC2c 4 sc.base0 ∧ IsC2c 6 sc.base1 ∧ Good a [4, 6] ∧ at_ a [0, 0] ≠ at_ a [0, 1] ∧
    Good v [4, 4] ∧ Good v' [4, 6] ∧ (∀ k < 4, ∀ l < 4, at_ v [k, l] = at_ v' [k, l]) ∧
    (∀ k < 4, ∀ l < 6, at_ v' [(4 - k) % 4, (6 - l) % 6] = (starRingEnd ℂ) (at_ v' [k, l])) ∧
    sp.backward v = ok a ∧ sc.backward v' = ok (onArray Complex.ofReal a) := by
  obtain ⟨b0, h0, -⟩ := isC2c_exists (n := 4) (by decide)
  obtain ⟨b1, h1, -⟩ := isR2c_exists (n := 6) (by decide)
  obtain ⟨c1, d1, -⟩ := isC2c_exists (n := 6) (by decide)
  have ga : Good (⟨[4, 6], (List.range 24).map fun t : ℕ => (t : ℝ), true⟩ : Arr ℝ) [4, 6] := ⟨by simp [Arr.WF], rfl, rfl⟩
  obtain ⟨v, v', hv, hv', gv, gv', e, hs⟩ := C66_space2_forward 4 6 ⟨b0, b1⟩ ⟨b0, c1⟩ h0 h1 h0 d1 _ ga
  obtain ⟨a, ha, ha', -⟩ := C66_space2_backward 4 6 ⟨b0, b1⟩ ⟨b0, c1⟩ h0 h1 h0 d1 v v' gv gv' e hs
  have shp : Space2.shapePhysical (⟨b0, b1⟩ : Space2 ℝ ℂ ℂ ℂ) = [4, 6] := by
    show [b0.lenPhys, b1.lenPhys] = _
    rw [(c2c_lens h0).1, (r2c_lens h1).1]
  obtain ⟨t, ht, -, -, htb, -⟩ := C36_backward_forward (⟨b0, b1⟩ : Space2 ℝ ℂ ℂ ℂ) h0.bwdFwd h1.bwdFwd
    (by rw [shp]; exact ga) (good_fill 0 _) (good_fill 0 _)
  rw [Res.ok.inj (ht.symm.trans hv)] at htb
  obtain rfl := Res.ok.inj (ha.symm.trans htb)
  refine ⟨⟨b0, b1⟩, ⟨b0, c1⟩, _, v, v', h0, h1, h0, d1, ga, ?_, gv, gv', e, hs, ha, ha'⟩
  show nth ((List.range 24).map fun t : ℕ => (t : ℝ)) 0 ≠ nth ((List.range 24).map fun t : ℕ => (t : ℝ)) 1
  rw [nth_map_range _ _ _ (by decide), nth_map_range _ _ _ (by decide)]
  norm_num

end Verif.Props
