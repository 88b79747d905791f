/- Accuracy in the maximum norm: slices, lanes of arrays, composition. -/
import Verif.Spec.Accurate
import Verif.Proof.Spaces
import Verif.Proof.LinOps
import Verif.Proof.AnySizes

namespace Verif
open Res Spec

section Norms
variable {D E : Type} [NormedAddCommGroup E]

theorem Spec.MaxLe.all {X : ℝ} {l : List E} (h : MaxLe X l) (hX : 0 ≤ X) (k : ℕ) : ‖nth l k‖ ≤ X := by
  by_cases hk : k < l.length
  · rw [nth_eq_getElem _ _ hk]; exact h _ (List.getElem_mem _)
  · rw [nth_of_le _ _ (by omega), norm_zero]; exact hX

theorem Spec.MaxLe.of {X : ℝ} {l : List E} (h : ∀ k < l.length, ‖nth l k‖ ≤ X) : MaxLe X l := by
  intro x hx
  obtain ⟨k, hk, rfl⟩ := List.getElem_of_mem hx
  have := h k hk
  rwa [nth_eq_getElem _ _ hk] at this

theorem Spec.MaxDist.all {δ : ℝ} {x y : List E} (h : MaxDist δ x y) (hδ : 0 ≤ δ) (k : ℕ) : ‖nth x k - nth y k‖ ≤ δ := by
  by_cases hk : k < x.length
  · exact h.2 k hk
  · rw [nth_of_le _ _ (by omega), nth_of_le _ _ (by have := h.1; omega), sub_zero, norm_zero]; exact hδ

theorem nth_mapv [Zero D] {v : D → E} (v0 : v 0 = 0) (l : List D) (k : ℕ) : nth (l.map v) k = v (nth l k) := by
  by_cases hi : k < l.length
  · exact nth_map v l k hi
  · rw [nth_of_le _ _ (by rw [List.length_map]; omega), nth_of_le _ _ (by omega), v0]

theorem Spec.MaxDist.mono {δ δ' : ℝ} {x y : List E} (h : MaxDist δ x y) (hd : δ ≤ δ') : MaxDist δ' x y :=
  ⟨h.1, fun i hi => (h.2 i hi).trans hd⟩

theorem Spec.MaxLe.mono {X X' : ℝ} {x : List E} (h : MaxLe X x) (hd : X ≤ X') : MaxLe X' x :=
  fun i hi => (h i hi).trans hd

theorem Spec.MaxDist.refl {x : List E} : MaxDist 0 x x := ⟨rfl, fun i _ => by simp⟩

theorem exists_maxLe (l : List E) : ∃ X, 0 ≤ X ∧ MaxLe X l := by
  induction l with
  | nil => exact ⟨0, le_rfl, fun x hx => by cases hx⟩
  | cons x l ih =>
    obtain ⟨X, h0, h⟩ := ih
    refine ⟨X + ‖x‖, by positivity, fun y hy => ?_⟩
    rcases List.mem_cons.mp hy with rfl | hy
    · linarith
    · exact (h y hy).trans (by linarith [norm_nonneg x])

end Norms

/-- the run of a slice operator does not depend on the old content of the output slice -/
def Fresh {S T : Type} (f : List S → List T → Res (List T)) (n m : ℕ) : Prop :=
  ∀ x out out', x.length = n → out.length = m → out'.length = m → f x out = f x out'

section
variable {D E D' E' : Type} [NormedAddCommGroup E] [NormedSpace ℝ E] [NormedAddCommGroup E'] [NormedSpace ℝ E']
  [Zero D']

theorem Spec.Computes.fresh {S T : Type} {f : List S → List T → Res (List T)} {n m : ℕ} {g : List S → List T}
    (h : Computes f n m g) : Fresh f n m := fun x out out' hx ho ho' =>
  (h x out hx ho).1.trans (h x out' hx ho').1.symm

/-- accuracy on exact data and the norm of the exact operator give accuracy -/
theorem Spec.Accurate.of {v : D → E} {v' : D' → E'} {f : List D → List D' → Res (List D')}
    {fR : List E → List E' → Res (List E')} {n m : ℕ} {L ε : ℝ} (hF : Fresh f n m) (hl : LinOp ℝ fR n m)
    (hL : 0 ≤ L) (hε : 0 ≤ ε)
    (herr : ∀ (x : List D) (out : List D') (outR : List E'), x.length = n → out.length = m → outR.length = m →
      ∃ r rR, f x out = ok r ∧ fR (x.map v) outR = ok rR ∧
        ∀ X, 0 ≤ X → MaxLe X (x.map v) → MaxDist (ε * X) (r.map v') rR)
    (hnorm : ∀ (x : List E) (out : List E') r, x.length = n → out.length = m → fR x out = ok r → ∀ X, 0 ≤ X →
      MaxLe X x → MaxLe (L * X) r) : Accurate v v' f fR n m L ε := by
  obtain ⟨gR, hg, hlin⟩ := hl
  have hrun : ∀ x, x.length = n → ∃ r : List D', r.length = m ∧ ∀ out, out.length = m → f x out = ok r := by
    intro x hx
    obtain ⟨r, rR, e, eR, h⟩ := herr x (List.replicate m 0) (List.replicate m 0) hx (by simp) (by simp)
    obtain ⟨X, hX0, hX⟩ := exists_maxLe (x.map v)
    have hk := hg (x.map v) (List.replicate m 0) (by simpa using hx) (by simp)
    obtain rfl := Res.ok.inj (eR.symm.trans hk.1)
    refine ⟨r, ?_, fun out ho => ?_⟩
    · have := (h X hX0 hX).1
      rw [List.length_map, hk.2] at this
      exact this
    · rw [hF x out (List.replicate m 0) hx ho (by simp)]; exact e
  obtain ⟨g, hgf⟩ := computes_i hrun
  refine ⟨g, gR, hgf, hg, fun x xR X δ hx hX hδ hXR hd => ?_⟩
  have hxR : xR.length = n := by rw [← hd.1, List.length_map, hx]
  have z : (List.replicate m (0 : E')).length = m := by simp
  have z' : (List.replicate m (0 : D')).length = m := by simp
  refine ⟨hnorm xR _ _ hxR z (hg xR _ hxR z).1 X hX hXR, ?_⟩
  have hvx : (x.map v).length = n := by rw [List.length_map, hx]
  obtain ⟨r, rR, e, eR, h⟩ := herr x (List.replicate m 0) (List.replicate m 0) hx z' z
  obtain rfl := Res.ok.inj (e.symm.trans (hgf x _ hx z').1)
  obtain rfl := Res.ok.inj (eR.symm.trans (hg _ _ hvx z).1)
  have hb : MaxLe (X + δ) (x.map v) := Spec.MaxLe.of fun k hk => by
    have h1 := hd.all hδ k
    have h2 := hXR.all hX k
    calc ‖nth (x.map v) k‖ = ‖nth xR k + (nth (x.map v) k - nth xR k)‖ := by congr 1; abel
      _ ≤ _ := (norm_add_le _ _).trans (add_le_add h2 h1)
  have h1 := h (X + δ) (by positivity) hb
  have hlen : (gR (x.map v)).length = m := (hg _ _ hvx z).2
  have hlenR : (gR xR).length = m := (hg _ _ hxR z).2
  -- the exact operator on the error of the data
  have hdl : (linComb ℝ 1 (-1) (x.map v) xR).length = n := by rw [linComb_length, hvx]
  have h2 := hnorm _ _ _ hdl z (hg _ _ hdl z).1 δ hδ (Spec.MaxLe.of fun k hk => by
    rw [linComb_length] at hk
    rw [nth_linComb _ _ _ _ hk]
    have := hd.all hδ k
    simpa [sub_eq_add_neg] using this)
  rw [hlin 1 (-1) _ _ hvx hxR] at h2
  refine ⟨by rw [h1.1, hlen, hlenR], fun i hi => ?_⟩
  have hi' : i < (gR (x.map v)).length := by rw [← h1.1]; exact hi
  have h3 := h2.all (by positivity) i
  rw [nth_linComb _ _ _ _ hi'] at h3
  have h4 := h1.2 i hi
  calc _ = ‖(nth ((g x).map v') i - nth (gR (x.map v)) i) + (nth (gR (x.map v)) i - nth (gR xR) i)‖ := by
        congr 1; abel
    _ ≤ _ := (norm_add_le _ _).trans (add_le_add h4 (by simpa [sub_eq_add_neg] using h3))

end

section Arrays
variable {D E D' E' D'' E'' : Type} [NormedAddCommGroup E] [NormedAddCommGroup E'] [NormedAddCommGroup E'']
  [Zero D] [Zero D'] [Zero D''] {v : D → E} {v' : D' → E'} {v'' : D'' → E''}

theorem mapAx_data {S T : Type} [Zero S] [Zero T] (g : List S → List T) (m ax : ℕ) (a : Arr S) {p : ℕ}
    (hp : p < (a.shape.set ax m).prod) : nth (mapAx g m ax a).data p =
      nth (g (laneAt a ax (unflat (a.shape.set ax m) p))) ((unflat (a.shape.set ax m) p).getD ax 0) := by
  unfold mapAx
  dsimp only
  rw [nth_map_range _ _ _ hp]

theorem mapAx_accurate (v0 : v 0 = 0) (v0' : v' 0 = 0) {g : List D → List D'} {gR : List E → List E'} {n m ax : ℕ}
    {L ε X δ : ℝ} (hX : 0 ≤ X) (hδ : 0 ≤ δ) (hL : 0 ≤ L) (hε : 0 ≤ ε)
    (hg : ∀ x xR X δ, x.length = n → 0 ≤ X → 0 ≤ δ → MaxLe X xR → MaxDist δ (x.map v) xR →
      MaxLe (L * X) (gR xR) ∧ MaxDist (ε * (X + δ) + L * δ) ((g x).map v') (gR xR))
    {a : Arr D} {aR : Arr E} (hsh : a.shape = aR.shape) (hn : a.shape.getD ax 0 = n)
    (hXa : MaxLe X aR.data) (hda : MaxDist δ (a.data.map v) aR.data) :
    MaxLe (L * X) (mapAx gR m ax aR).data ∧
      MaxDist (ε * (X + δ) + L * δ) ((mapAx g m ax a).data.map v') (mapAx gR m ax aR).data := by
  have lane : ∀ idx, MaxLe (L * X) (gR (laneAt aR ax idx)) ∧
      MaxDist (ε * (X + δ) + L * δ) ((g (laneAt a ax idx)).map v') (gR (laneAt aR ax idx)) := by
    intro idx
    refine hg _ _ X δ (by rw [laneAt_length, hn]) hX hδ ?_ ?_
    · intro x hx
      simp only [laneAt, List.mem_map] at hx
      obtain ⟨k, -, rfl⟩ := hx
      exact hXa.all hX _
    · refine ⟨by rw [List.length_map, laneAt_length, laneAt_length, hsh], fun i hi => ?_⟩
      rw [List.length_map, laneAt_length] at hi
      rw [nth_mapv v0, nth_laneAt a ax idx hi, nth_laneAt aR ax idx (by rw [← hsh]; exact hi)]
      unfold at_
      rw [← nth_mapv v0, hsh]
      exact hda.all hδ _
  have len : (mapAx gR m ax aR).data.length = (aR.shape.set ax m).prod := by simp [mapAx]
  have len' : (mapAx g m ax a).data.length = (aR.shape.set ax m).prod := by simp [mapAx, hsh]
  refine ⟨Spec.MaxLe.of fun k hk => ?_, by rw [List.length_map, len, len'], fun k hk => ?_⟩
  · rw [len] at hk
    rw [mapAx_data gR m ax aR hk]
    exact (lane _).1.all (by positivity) _
  · rw [List.length_map, len'] at hk
    rw [nth_mapv v0', mapAx_data gR m ax aR hk, mapAx_data g m ax a (by rw [hsh]; exact hk), ← nth_mapv v0', hsh]
    exact (lane _).2.all (by positivity) _

/-- from lanes to arrays -/
theorem Spec.Accurate.on {f : List D → List D' → Res (List D')} {fR : List E → List E' → Res (List E')} {n m ax : ℕ}
    {L ε : ℝ} (h : Accurate v v' f fR n m L ε) (hL : 0 ≤ L) (hε : 0 ≤ ε) (v0 : v 0 = 0) (v0' : v' 0 = 0) {sh : List ℕ}
    (hn : sh.getD ax 0 = n)
    {M : Arr D → Res (Arr D')} {MR : Arr E → Res (Arr E')}
    (hM : ∀ g, Computes f n m g → ∀ a, Good a sh → M a = ok (mapAx g m ax a))
    (hMR : ∀ g, Computes fR n m g → ∀ a, Good a sh → MR a = ok (mapAx g m ax a)) :
    AccurateOn v v' M MR sh (sh.set ax m) L ε := by
  obtain ⟨g, gR, c, cR, hg⟩ := h
  intro a aR X δ ha haR hX hδ hXa hda
  obtain ⟨h1, h2⟩ := mapAx_accurate (m := m) (ax := ax) v0 v0' hX hδ hL hε hg (ha.2.2.trans haR.2.2.symm)
    (by rw [ha.2.2]; exact hn) hXa hda
  exact ⟨_, _, hM g c a ha, hMR gR cR aR haR, good_mapAx _ _ _ ha.2.2, good_mapAx _ _ _ haR.2.2, h1, h2⟩

omit [Zero D] [Zero D'] [Zero D''] in
/-- one method after the other -/
theorem Spec.AccurateOn.comp {M : Arr D → Res (Arr D')} {MR : Arr E → Res (Arr E')} {N : Arr D' → Res (Arr D'')}
    {NR : Arr E' → Res (Arr E'')} {sh sh' sh'' : List ℕ} {L ε L' ε' : ℝ} (hL : 0 ≤ L) (hε : 0 ≤ ε)
    (h : AccurateOn v v' M MR sh sh' L ε) (h' : AccurateOn v' v'' N NR sh' sh'' L' ε') :
    AccurateOn v v'' (fun a => M a >>= N) (fun a => MR a >>= NR) sh sh'' (L * L') ((L + ε) * (L' + ε') - L * L') := by
  intro a aR X δ ha haR hX hδ hXa hda
  obtain ⟨r, rR, e, eR, gr, grR, h1, h2⟩ := h a aR X δ ha haR hX hδ hXa hda
  obtain ⟨s, sR, d, dR, gs, gsR, h3, h4⟩ := h' r rR _ _ gr grR (by positivity) (by positivity) h1 h2
  refine ⟨s, sR, by show (M a >>= N) = _; rw [e]; exact d, by show (MR aR >>= NR) = _; rw [eR]; exact dR, gs, gsR, h3.mono (le_of_eq (by ring)),
    h4.mono (le_of_eq (by ring))⟩

end Arrays
end Verif
