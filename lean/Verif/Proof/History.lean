/- C100: histories of accurate round trips. -/
import Verif.Spec.History
import Verif.Proof.Accurate
import Verif.Proof.AccurateSpaces

namespace Verif
open Res Spec

section
variable {E : Type} [NormedAddCommGroup E]

theorem Spec.MaxDist.trans {a b : ℝ} {x y z : List E} (h : MaxDist a x y) (k : MaxDist b y z) : MaxDist (a + b) x z := by
  refine ⟨h.1.trans k.1, fun i hi => ?_⟩
  have e : nth x i - nth z i = (nth x i - nth y i) + (nth y i - nth z i) := by abel
  rw [e]
  exact (norm_add_le _ _).trans (add_le_add (h.2 i hi) (k.2 i (h.1 ▸ hi)))

theorem Spec.MaxDist.symm {a : ℝ} {x y : List E} (h : MaxDist a x y) : MaxDist a y x :=
  ⟨h.1.symm, fun i hi => by rw [norm_sub_rev]; exact h.2 i (h.1 ▸ hi)⟩

/-- data close to bounded data are bounded -/
theorem Spec.MaxDist.le {a X : ℝ} {x y : List E} (h : MaxDist a x y) (k : MaxLe X y) : MaxLe (X + a) x := by
  refine MaxLe.of fun i hi => ?_
  have e : nth x i = nth y i + (nth x i - nth y i) := by abel
  rw [e]
  refine (norm_add_le _ _).trans (add_le_add ?_ (h.2 i hi))
  rw [nth_eq_getElem _ _ (h.1 ▸ hi)]
  exact k _ (List.getElem_mem _)

end

theorem good_onArray {S T : Type} (v : S → T) {a : Arr S} {sh : List ℕ} (h : Good a sh) : Good (onArray v a) sh :=
  ⟨by have := h.1; unfold Arr.WF onArray at *; simpa using this, h.2.1, h.2.2⟩

section
variable {D E : Type} [NormedAddCommGroup E] {v : D → E} {sh : List ℕ} {L ε : ℝ}

/-- Round trips that exactly are the identity: errors add up, they are not amplified. -/
theorem history_id {MR : Arr E → Res (Arr E)} (h0 : 0 ≤ ε) (hid : ∀ a, Good a sh → MR a = ok a) :
    ∀ (hist : List (Arr D → Res (Arr D))), (∀ f ∈ hist, AccurateOn v v f MR sh sh L ε) →
    ∀ a X, Good a sh → 0 ≤ X → MaxLe X (a.data.map v) →
      ∃ r, runAll hist a = ok r ∧ Good r sh ∧ MaxDist (((1 + ε) ^ hist.length - 1) * X) (r.data.map v) (a.data.map v)
  | [], _, a, X, ha, _, _ => ⟨a, rfl, ha, by simpa using MaxDist.refl⟩
  | f :: hist, hf, a, X, ha, hX, hb => by
    obtain ⟨r, rR, e1, e2, g1, -, -, d⟩ := hf f (by simp) a (onArray v a) X 0 ha (good_onArray v ha) hX le_rfl hb MaxDist.refl
    rw [hid _ (good_onArray v ha)] at e2
    obtain rfl := Res.ok.inj e2
    have d' : MaxDist (ε * X) (r.data.map v) (a.data.map v) := d.mono (by simp)
    obtain ⟨s, e3, g3, d3⟩ := history_id h0 hid hist (fun g hg => hf g (by simp [hg])) r (X + ε * X) g1 (by positivity) (d'.le hb)
    refine ⟨s, by show f a >>= runAll hist = _; rw [e1]; exact e3, g3, (d3.trans d').mono (le_of_eq ?_)⟩
    rw [List.length_cons, pow_succ]; ring

/-- the state of a history of projections: `N` bounds the data, `B q` the distance of their projection to `P` -/
theorem history_step {MR : Arr E → Res (Arr E)} (h0 : 0 ≤ ε) (h1 : 1 ≤ L) (lip : AccurateOn id id MR MR sh sh L 0)
    (idem : ∀ a, Good a sh → ∃ b, MR a = ok b ∧ Good b sh ∧ MR b = ok b) {P : Arr E} {B : ℝ} (hB : 0 ≤ B) (hP : MaxLe B P.data) :
    ∀ (hist : List (Arr D → Res (Arr D))), hist ≠ [] → (∀ f ∈ hist, AccurateOn v v f MR sh sh L ε) →
    ∀ (j : ℕ) a aR, Good a sh → MaxLe (B * (1 + L * ε) ^ j) (a.data.map v) → MR (onArray v a) = ok aR →
      MaxDist (B * ((1 + L * ε) ^ j - 1)) aR.data P.data →
      ∃ r, runAll hist a = ok r ∧ Good r sh ∧
        MaxDist (B * ((1 + L * ε) ^ (j + hist.length) - 1)) (r.data.map v) P.data
  | [], h, _, _, _, _, _, _, _, _ => absurd rfl h
  | f :: hist, _, hf, j, a, aR, ha, hb, hR, hd => by
    have hq : 0 ≤ L * ε := by positivity
    have hN : 0 ≤ B * (1 + L * ε) ^ j := by positivity
    obtain ⟨r, rR, e1, e2, g1, g2, -, d⟩ := hf f (by simp) a (onArray v a) _ 0 ha (good_onArray v ha) hN le_rfl hb MaxDist.refl
    obtain rfl := Res.ok.inj (hR.symm.trans e2)
    have d' : MaxDist (ε * (B * (1 + L * ε) ^ j)) (r.data.map v) aR.data := d.mono (by simp)
    have hεL : ε ≤ L * ε := by nlinarith
    have dP : MaxDist (B * ((1 + L * ε) ^ (j + 1) - 1)) (r.data.map v) P.data := by
      refine (d'.trans hd).mono ?_
      rw [pow_succ]
      nlinarith [mul_le_mul_of_nonneg_right hεL hN]
    by_cases hh : hist = []
    · subst hh
      exact ⟨r, by show f a >>= runAll [] = _; rw [e1]; rfl, g1, dP⟩
    obtain ⟨b, eb, gb, ebb⟩ := idem _ (good_onArray v ha)
    obtain rfl := Res.ok.inj (hR.symm.trans eb)
    obtain ⟨X, hX, bX⟩ := exists_maxLe aR.data
    obtain ⟨s, sR, f1, f2, -, -, -, d2⟩ := lip (onArray v r) aR X (ε * (B * (1 + L * ε) ^ j)) (good_onArray v g1) g2 hX
      (by positivity) bX (by simpa [onArray] using d')
    obtain rfl := Res.ok.inj (ebb.symm.trans f2)
    have d2' : MaxDist (L * (ε * (B * (1 + L * ε) ^ j))) s.data aR.data := by simpa using d2
    obtain ⟨t, e3, g3, d3⟩ := history_step h0 h1 lip idem hB hP hist hh (fun g hg => hf g (by simp [hg])) (j + 1) r s g1
      ((dP.le hP).mono (le_of_eq (by ring))) f1 ((d2'.trans hd).mono (le_of_eq (by rw [pow_succ]; ring)))
    refine ⟨t, by show f a >>= runAll hist = _; rw [e1]; exact e3, g3, ?_⟩
    rw [List.length_cons, Nat.add_comm hist.length 1, ← Nat.add_assoc]; exact d3

/-- Round trips that exactly are a projection: the first one projects, after that errors add up. -/
theorem history_proj {MR : Arr E → Res (Arr E)} (h0 : 0 ≤ ε) (h1 : 1 ≤ L) (lip : AccurateOn id id MR MR sh sh L 0)
    (idem : ∀ a, Good a sh → ∃ b, MR a = ok b ∧ Good b sh ∧ MR b = ok b)
    (hist : List (Arr D → Res (Arr D))) (hh : hist ≠ []) (hf : ∀ f ∈ hist, AccurateOn v v f MR sh sh L ε) {a : Arr D} {X : ℝ}
    (ha : Good a sh) (hX : 0 ≤ X) (hb : MaxLe X (a.data.map v)) :
    ∃ r rR, runAll hist a = ok r ∧ MR (onArray v a) = ok rR ∧ Good r sh ∧ Good rR sh ∧
      MaxDist (((1 + L * ε) ^ hist.length - 1) * (L * X)) (r.data.map v) rR.data := by
  obtain ⟨s, P, -, f2, -, g2, b2, -⟩ := lip (onArray v a) (onArray v a) X 0 (good_onArray v ha) (good_onArray v ha) hX le_rfl hb
    (by simpa using MaxDist.refl)
  have hL : 0 ≤ L * X := by positivity
  obtain ⟨r, e, g, d⟩ := history_step h0 h1 lip idem hL b2 hist hh hf 0 a P ha (hb.mono (by nlinarith)) f2
    (by simpa using MaxDist.refl)
  refine ⟨r, P, e, f2, g, g2, d.mono (le_of_eq (by rw [Nat.zero_add]; ring))⟩

end

/-! ### exact linear operators with a gain are Lipschitz -/

section
variable {D E D' E' : Type} [NormedAddCommGroup E] [Module ℝ E] [NormedAddCommGroup E'] [Module ℝ E']

theorem Spec.Accurate.lipschitz {v : D → E} {v' : D' → E'} {f : List D → List D' → Res (List D')}
    {fR : List E → List E' → Res (List E')} {n m : ℕ} {L ε : ℝ} (h : Accurate v v' f fR n m L ε)
    (hl : LinOp ℝ fR n m) (hv : Function.Surjective v) : Accurate id id fR fR n m L 0 := by
  obtain ⟨g, gR, hg, hgR, key⟩ := h
  obtain ⟨l, hl, lin⟩ := hl
  have hm : ∀ x, x.length = n → gR x = l x := fun x hx =>
    Res.ok.inj ((hgR x (List.replicate m 0) hx (by simp)).1.symm.trans (hl x (List.replicate m 0) hx (by simp)).1)
  have gain : ∀ xR X, xR.length = n → 0 ≤ X → MaxLe X xR → MaxLe (L * X) (gR xR) := by
    intro xR X hn hX hb
    obtain ⟨x, rfl⟩ : ∃ x : List D, x.map v = xR := by
      refine ⟨xR.map (Function.surjInv hv), ?_⟩
      rw [List.map_map, show v ∘ Function.surjInv hv = id from funext fun y => Function.surjInv_eq hv y, List.map_id]
    exact (key x _ X 0 (by simpa using hn) hX le_rfl hb MaxDist.refl).1
  refine ⟨gR, gR, hgR, hgR, fun x xR X δ hn hX hδ hb hd => ?_⟩
  rw [List.map_id] at hd
  have hnR : xR.length = n := by rw [← hd.1, hn]
  refine ⟨gain xR X hnR hX hb, ?_⟩
  rw [List.map_id]
  have hdl : (linComb ℝ (1:ℝ) (-1) x xR).length = n := by rw [linComb, List.length_map, List.length_range, hn]
  have hc := gain (linComb ℝ (1:ℝ) (-1) x xR) δ hdl hδ (MaxLe.of fun i hi => by
    have hi' : i < x.length := by rwa [hdl, ← hn] at hi
    rw [linComb, nth_map_range _ _ _ hi', one_smul, neg_one_smul, ← sub_eq_add_neg]
    exact hd.2 i hi')
  rw [hm _ hdl, lin 1 (-1) x xR hn hnR, ← hm _ hn, ← hm _ hnR] at hc
  have ex := (hgR x (List.replicate m 0) hn (by simp)).2
  have eR := (hgR xR (List.replicate m 0) hnR (by simp)).2
  refine ⟨ex.trans eR.symm, fun i hi => ?_⟩
  have hX0 : 0 ≤ L * δ := by
    have hl0 : i < (linComb ℝ (1:ℝ) (-1) (gR x) (gR xR)).length := by rw [linComb, List.length_map, List.length_range]; exact hi
    exact (norm_nonneg _).trans (hc _ (List.getElem_mem hl0))
  have := hc.all hX0 i
  rw [linComb, nth_map_range _ _ _ hi, one_smul, neg_one_smul, ← sub_eq_add_neg] at this
  linarith

end

section
variable {P S T A P' S' T' A' : Type} [NormedAddCommGroup P'] [NormedAddCommGroup S'] [NormedAddCommGroup T']
  [Module ℝ P'] [Module ℝ S']

theorem Spec.ForwardAcc.lipschitz {v : P → P'} {w : S → S'} {b : Base P S T A} {bR : Base P' S' T' A'} {a : Amp}
    (h : ForwardAcc v w b bR a) (hl : LinOp ℝ bR.forwardSlice bR.lenPhys bR.lenSpec) (hv : Function.Surjective v) :
    ForwardAcc id id bR bR ⟨a.gain, 0⟩ := by
  obtain ⟨⟨h1, h2, h3⟩, p, k⟩ := h
  rw [h1, h2] at k
  exact ⟨⟨rfl, rfl, rfl⟩, ⟨p.1, le_rfl⟩, k.lipschitz hl hv⟩

theorem Spec.BackwardAcc.lipschitz {v : P → P'} {w : S → S'} {b : Base P S T A} {bR : Base P' S' T' A'} {a : Amp}
    (h : BackwardAcc w v b bR a) (hl : LinOp ℝ bR.backwardSlice bR.lenSpec bR.lenPhys) (hv : Function.Surjective w) :
    BackwardAcc id id bR bR ⟨a.gain, 0⟩ := by
  obtain ⟨⟨h1, h2, h3⟩, p, k⟩ := h
  rw [h1, h2] at k
  exact ⟨⟨rfl, rfl, rfl⟩, ⟨p.1, le_rfl⟩, k.lipschitz hl hv⟩

end
end Verif
