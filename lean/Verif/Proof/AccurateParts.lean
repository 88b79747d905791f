/- Accuracy on complex data from accuracy on the real and imaginary parts (for C96). -/
import Verif.Proof.Accurate
import Verif.Spec.Parts
import Verif.Proof.RndFourier

namespace Verif
open Res Spec
variable {R : Rounding}

private theorem ok_of_onResult {α β : Type} {h : α → β} {r : Res α} {b : β} (e : ok b = onResult h r) : ∃ a, r = ok a ∧ b = h a := by
  cases r with
  | ok a => exact ⟨a, rfl, Res.ok.inj e⟩
  | err x => cases e

private theorem ext_parts {l l' : List (RndC R)} (h1 : l.map RndC.re = l'.map RndC.re) (h2 : l.map RndC.im = l'.map RndC.im) :
    l = l' := by
  have hl : l.length = l'.length := by simpa using congrArg List.length h1
  refine List.ext_getElem hl fun i hi hi' => ?_
  have e1 : (l.map RndC.re)[i]? = (l'.map RndC.re)[i]? := by rw [h1]
  have e2 : (l.map RndC.im)[i]? = (l'.map RndC.im)[i]? := by rw [h2]
  simp only [List.getElem?_map, List.getElem?_eq_getElem hi, List.getElem?_eq_getElem hi', Option.map_some, Option.some.injEq] at e1 e2
  cases h : l[i] with
  | mk a b =>
    cases h' : l'[i] with
    | mk a' b' =>
      rw [h, h'] at e1 e2
      simp only at e1 e2
      rw [e1, e2]

private theorem mapC (l : List (RndC R)) : (l.map RndC.re).map Rnd.val = (l.map RndC.val).map Complex.re ∧
    (l.map RndC.im).map Rnd.val = (l.map RndC.val).map Complex.im := by
  simp only [List.map_map]
  exact ⟨rfl, rfl⟩

private theorem nth_mapc {h : ℂ → ℝ} (h0 : h 0 = 0) (l : List ℂ) (k : ℕ) : nth (l.map h) k = h (nth l k) := nth_mapv h0 l k

theorem norm_le_sqrt_two {z : ℂ} {c : ℝ} (h1 : |z.re| ≤ c) (h2 : |z.im| ≤ c) : ‖z‖ ≤ √2 * c := by
  have hc : 0 ≤ c := (abs_nonneg _).trans h1
  refine abs_le_of_sq_le_sq' ?_ (by positivity) |>.2
  rw [mul_pow, Real.sq_sqrt (by norm_num), Complex.sq_norm, Complex.normSq_apply]
  have e1 := mul_self_le_mul_self (abs_nonneg _) h1
  have e2 := mul_self_le_mul_self (abs_nonneg _) h2
  rw [abs_mul_abs_self] at e1 e2
  nlinarith

theorem Spec.Accurate.complex {f : List (Rnd R) → List (Rnd R) → Res (List (Rnd R))} {fR : List ℝ → List ℝ → Res (List ℝ)}
    {fc : List (RndC R) → List (RndC R) → Res (List (RndC R))} {fcR : List ℂ → List ℂ → Res (List ℂ)} {n m : ℕ} {a : Amp}
    (hre : ∀ x y, f (x.map RndC.re) (y.map RndC.re) = onResult (List.map RndC.re) (fc x y))
    (him : ∀ x y, f (x.map RndC.im) (y.map RndC.im) = onResult (List.map RndC.im) (fc x y))
    (hreR : ∀ x y, fR (x.map Complex.re) (y.map Complex.re) = onResult (List.map Complex.re) (fcR x y))
    (himR : ∀ x y, fR (x.map Complex.im) (y.map Complex.im) = onResult (List.map Complex.im) (fcR x y))
    (hmul : ∀ (c : ℂ) x y, fcR (x.map (c * ·)) (y.map (c * ·)) = onResult (List.map (c * ·)) (fcR x y))
    (hl : LinOp ℝ fcR n m) (ha : a.Nonneg) (h : Accurate Rnd.val Rnd.val f fR n m a.gain a.err) :
    Accurate RndC.val RndC.val fc fcR n m a.cplx.gain a.cplx.err := by
  obtain ⟨g, gR, c, cR, acc⟩ := h
  have runs : ∀ (x out : List (RndC R)), x.length = n → out.length = m → ∃ r, fc x out = ok r ∧
      r.map RndC.re = g (x.map RndC.re) ∧ r.map RndC.im = g (x.map RndC.im) := by
    intro x out hx ho
    have h1 := hre x out
    rw [(c _ _ (by simpa using hx) (by simpa using ho)).1] at h1
    have h2 := him x out
    rw [(c _ _ (by simpa using hx) (by simpa using ho)).1] at h2
    obtain ⟨r, e, p⟩ := ok_of_onResult h1
    obtain ⟨r', e', p'⟩ := ok_of_onResult h2
    obtain rfl := Res.ok.inj (e.symm.trans e')
    exact ⟨r, e, p.symm, p'.symm⟩
  have runsR : ∀ (x out r : List ℂ), x.length = n → out.length = m → fcR x out = ok r →
      r.map Complex.re = gR (x.map Complex.re) ∧ r.map Complex.im = gR (x.map Complex.im) := by
    intro x out r hx ho e
    have h1 := hreR x out
    rw [(cR _ _ (by simpa using hx) (by simpa using ho)).1, e] at h1
    have h2 := himR x out
    rw [(cR _ _ (by simpa using hx) (by simpa using ho)).1, e] at h2
    exact ⟨(Res.ok.inj h1).symm, (Res.ok.inj h2).symm⟩
  have bre : ∀ {x : List ℂ} {X : ℝ}, MaxLe X x → MaxLe X (x.map Complex.re) := fun h z hz => by
    obtain ⟨w, hw, rfl⟩ := List.mem_map.mp hz
    exact (Complex.abs_re_le_norm w).trans (h w hw)
  have bim : ∀ {x : List ℂ} {X : ℝ}, MaxLe X x → MaxLe X (x.map Complex.im) := fun h z hz => by
    obtain ⟨w, hw, rfl⟩ := List.mem_map.mp hz
    exact (Complex.abs_im_le_norm w).trans (h w hw)
  refine Spec.Accurate.of ?_ hl ha.1 (mul_nonneg (Real.sqrt_nonneg _) ha.2) (fun x out outR hx ho hoR => ?_)
    (fun x out r hx ho e X hX hb => ?_)
  · intro x out out' hx ho ho'
    obtain ⟨r, e, p, q⟩ := runs x out hx ho
    obtain ⟨r', e', p', q'⟩ := runs x out' hx ho'
    rw [e, e', ext_parts (p.trans p'.symm) (q.trans q'.symm)]
  · obtain ⟨r, e, p, q⟩ := runs x out hx ho
    obtain ⟨gc, hgc, -⟩ := hl
    have hxv : (x.map RndC.val).length = n := by simpa using hx
    obtain ⟨eR, lR⟩ := hgc (x.map RndC.val) outR hxv hoR
    obtain ⟨pR, qR⟩ := runsR _ _ _ hxv hoR eR
    refine ⟨r, _, e, eR, fun X hX hb => ?_⟩
    have k1 := (acc (x.map RndC.re) ((x.map RndC.val).map Complex.re) X 0 (by simpa using hx) hX le_rfl (bre hb)
      (by rw [(mapC x).1]; exact MaxDist.refl)).2
    have k2 := (acc (x.map RndC.im) ((x.map RndC.val).map Complex.im) X 0 (by simpa using hx) hX le_rfl (bim hb)
      (by rw [(mapC x).2]; exact MaxDist.refl)).2
    rw [← p, ← pR, (mapC r).1, add_zero, mul_zero, add_zero] at k1
    rw [← q, ← qR, (mapC r).2, add_zero, mul_zero, add_zero] at k2
    refine ⟨by simpa using k1.1, fun i hi => ?_⟩
    have j1 := k1.2 i (by simpa using hi)
    have j2 := k2.2 i (by simpa using hi)
    rw [nth_mapc rfl, nth_mapc rfl] at j1 j2
    show _ ≤ √2 * a.err * X
    rw [mul_assoc]
    refine norm_le_sqrt_two ?_ ?_
    · rw [Complex.sub_re]; exact j1
    · rw [Complex.sub_im]; exact j2
  · refine Spec.MaxLe.of fun k hk => ?_
    by_cases h0 : nth r k = 0
    · rw [h0, norm_zero]; exact mul_nonneg ha.1 hX
    have hp : 0 < ‖nth r k‖ := norm_pos_iff.mpr h0
    set w : ℂ := (starRingEnd ℂ) (nth r k) / ‖nth r k‖ with hw
    have hw1 : ‖w‖ = 1 := by rw [hw, norm_div, Complex.norm_conj, Complex.norm_real, norm_norm, div_self hp.ne']
    have e' := hmul w x out
    rw [e] at e'
    obtain ⟨pR, -⟩ := runsR _ _ _ (by simpa using hx) (by simpa using ho) e'
    have hb' : MaxLe X (x.map (w * ·)) := fun z hz => by
      obtain ⟨y, hy, rfl⟩ := List.mem_map.mp hz
      rw [norm_mul, hw1, one_mul]; exact hb y hy
    have k1 := (acc (((x.map (w * ·)).map Complex.re).map (fun t => ⟨t⟩)) ((x.map (w * ·)).map Complex.re) X 0 (by simpa using hx) hX le_rfl
      (bre hb') (by rw [show (((x.map (w * ·)).map Complex.re).map (fun t => (⟨t⟩ : Rnd R))).map Rnd.val = (x.map (w * ·)).map Complex.re from by
        rw [List.map_map]; exact List.map_id _]; exact MaxDist.refl)).1
    rw [← pR] at k1
    have k2 := k1.all (mul_nonneg ha.1 hX) k
    rw [nth_mapc rfl, nth_mapv (by simp)] at k2
    have e3 : w * nth r k = ((‖nth r k‖ : ℝ) : ℂ) := by
      rw [hw, div_mul_eq_mul_div, mul_comm, Complex.mul_conj, Complex.normSq_eq_norm_sq]
      push_cast
      rw [pow_two, mul_div_assoc, div_self (by exact_mod_cast hp.ne'), mul_one]
    rw [e3, Complex.ofReal_re, Real.norm_of_nonneg hp.le] at k2
    exact k2

end Verif
