/- The operators of the Chebyshev-type bases in arithmetic with rounding are accurate in the maximum norm. -/
import Verif.Proof.Fresh
import Verif.Props.RoundingMixed

namespace Verif
open Res Spec
variable {R : Rounding}

theorem vals_mk (x : List ℝ) : vals (x.map (fun a => (⟨a⟩ : Rnd R))) = x := by
  simp [vals, Function.comp_def]

/-- accuracy on exact data, for real data -/
theorem accurate_rnd {f : List (Rnd R) → List (Rnd R) → Res (List (Rnd R))} {fR : List ℝ → List ℝ → Res (List ℝ)}
    {n m : ℕ} {L ε : ℝ} (hF : Fresh f n m) (hl : LinOp ℝ fR n m) (hL : 0 ≤ L) (hε : 0 ≤ ε)
    (key : ∀ (x out : List (Rnd R)) (outR : List ℝ), x.length = n → out.length = m → outR.length = m →
      ∃ r rR, f x out = ok r ∧ fR (vals x) outR = ok rR ∧
        ∀ X, 0 ≤ X → Bounded X (vals x) → Within (ε * X) (vals r) rR ∧ Bounded (L * X) rR) :
    Accurate Rnd.val Rnd.val f fR n m L ε := by
  refine Spec.Accurate.of hF hl hL hε (fun x out outR hx ho hoR => ?_) (fun x out r hx ho e X hX hb => ?_)
  · obtain ⟨r, rR, e, eR, h⟩ := key x out outR hx ho hoR
    exact ⟨r, rR, e, eR, fun X hX hb => (h X hX hb).1⟩
  · obtain ⟨r', rR, -, eR, h⟩ := key (x.map (fun a => ⟨a⟩)) (List.replicate m 0) out (by simpa using hx) (by simp) ho
    rw [vals_mk] at eR h
    obtain rfl := Res.ok.inj (eR.symm.trans e)
    exact (h X hX hb).2

/-- one slice operator after the other, through a zeroed scratch slice -/
theorem Spec.Accurate.scratch {D E D' E' D'' E'' : Type} [NormedAddCommGroup E] [NormedAddCommGroup E'] [NormedAddCommGroup E'']
    [Zero D'] {v : D → E} {v' : D' → E'} {v'' : D'' → E''}
    {f : List D → List D' → Res (List D')} {fR : List E → List E' → Res (List E')}
    {h : List D' → List D'' → Res (List D'')} {hR : List E' → List E'' → Res (List E'')} {n m r : ℕ} {L ε L' ε' : ℝ}
    (hL : 0 ≤ L) (hε : 0 ≤ ε) (h1 : Accurate v v' f fR n m L ε) (h2 : Accurate v' v'' h hR m r L' ε') :
    Accurate v v'' (fun x out => f x (List.replicate m 0) >>= fun s => h s out)
      (fun x out => fR x (List.replicate m 0) >>= fun s => hR s out) n r (L * L') ((L + ε) * (L' + ε') - L * L') := by
  obtain ⟨g, gR, c, cR, a⟩ := h1
  obtain ⟨g', gR', c', cR', a'⟩ := h2
  refine ⟨fun x => g' (g x), fun x => gR' (gR x), fun x out hx ho => ?_, fun x out hx ho => ?_,
    fun x xR X δ hx hX hδ hXR hd => ?_⟩
  · obtain ⟨e, hl⟩ := c x (List.replicate m 0) hx (by simp)
    obtain ⟨e', hl'⟩ := c' (g x) out hl ho
    refine ⟨?_, hl'⟩
    show (f x (List.replicate m 0) >>= fun s => h s out) = _
    rw [e, bind_ok, e']
  · obtain ⟨e, hl⟩ := cR x (List.replicate m 0) hx (by simp)
    obtain ⟨e', hl'⟩ := cR' (gR x) out hl ho
    refine ⟨?_, hl'⟩
    show (fR x (List.replicate m 0) >>= fun s => hR s out) = _
    rw [e, bind_ok, e']
  · obtain ⟨p, q⟩ := a x xR X δ hx hX hδ hXR hd
    obtain ⟨p', q'⟩ := a' (g x) (gR xR) _ _ (c x (List.replicate m 0) hx (by simp)).2 (by positivity) (by positivity) p q
    exact ⟨p'.mono (le_of_eq (by ring)), q'.mono (le_of_eq (by ring))⟩

end Verif
