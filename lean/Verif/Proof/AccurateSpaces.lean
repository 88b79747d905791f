/- Accuracy in the maximum norm of chains of operators along the axes of an array. -/
import Verif.Proof.Accurate

namespace Verif
open Res Spec

theorem Spec.Amp.Nonneg.andThen {a b : Amp} (ha : a.Nonneg) (hb : b.Nonneg) : (a.andThen b).Nonneg := by
  obtain ⟨h1, h2⟩ := ha
  obtain ⟨h3, h4⟩ := hb
  constructor
  · exact mul_nonneg h1 h3
  · show 0 ≤ (a.gain + a.err) * (b.gain + b.err) - a.gain * b.gain
    nlinarith [mul_nonneg h1 h4, mul_nonneg h2 h3, mul_nonneg h2 h4]

section
variable {D0 E0 D1 E1 D2 E2 D3 E3 : Type} [Zero D0] [Zero D1] [Zero D2] [Zero D3] [NormedAddCommGroup E0] [NormedAddCommGroup E1]
  [NormedAddCommGroup E2] [NormedAddCommGroup E3]
  {v0 : D0 → E0} {v1 : D1 → E1} {v2 : D2 → E2} {v3 : D3 → E3}


theorem accurateOn_one {f0 : List D0 → List D1 → Res (List D1)} {f0R : List E0 → List E1 → Res (List E1)} {n0 m0 ax0 : ℕ} {a0 : Amp}
    (h0 : Accurate v0 v1 f0 f0R n0 m0 a0.gain a0.err) (p0 : a0.Nonneg) (z0 : v0 0 = 0) (z1 : v1 0 = 0) {sh sh' : List ℕ}
    (e0 : sh.getD ax0 0 = n0) (hsh : sh.set ax0 m0 = sh') {M : Arr D0 → Res (Arr D1)} {MR : Arr E0 → Res (Arr E1)}
    (hM : ∀ g, Computes f0 n0 m0 g → ∀ a, Good a sh → M a = ok (mapAx g m0 ax0 a))
    (hMR : ∀ g, Computes f0R n0 m0 g → ∀ a, Good a sh → MR a = ok (mapAx g m0 ax0 a)) :
    AccurateOn v0 v1 M MR sh sh' a0.gain a0.err := by
  subst hsh
  exact h0.on p0.1 p0.2 z0 z1 e0 hM hMR

theorem accurateOn_two {f0 : List D0 → List D1 → Res (List D1)} {f0R : List E0 → List E1 → Res (List E1)}
    {f1 : List D1 → List D2 → Res (List D2)} {f1R : List E1 → List E2 → Res (List E2)} {n0 m0 ax0 n1 m1 ax1 : ℕ} {a0 a1 : Amp}
    (h0 : Accurate v0 v1 f0 f0R n0 m0 a0.gain a0.err) (h1 : Accurate v1 v2 f1 f1R n1 m1 a1.gain a1.err)
    (p0 : a0.Nonneg) (p1 : a1.Nonneg) (z0 : v0 0 = 0) (z1 : v1 0 = 0) (z2 : v2 0 = 0) {sh sh' : List ℕ}
    (e0 : sh.getD ax0 0 = n0) (e1 : (sh.set ax0 m0).getD ax1 0 = n1) (hsh : (sh.set ax0 m0).set ax1 m1 = sh')
    {M : Arr D0 → Res (Arr D2)} {MR : Arr E0 → Res (Arr E2)}
    (hM : ∀ g g1, Computes f0 n0 m0 g → Computes f1 n1 m1 g1 → ∀ a, Good a sh → M a = ok (mapAx g1 m1 ax1 (mapAx g m0 ax0 a)))
    (hMR : ∀ g g1, Computes f0R n0 m0 g → Computes f1R n1 m1 g1 → ∀ a, Good a sh →
      MR a = ok (mapAx g1 m1 ax1 (mapAx g m0 ax0 a))) :
    AccurateOn v0 v2 M MR sh sh' (a0.andThen a1).gain (a0.andThen a1).err := by
  subst hsh
  obtain ⟨g, gR, c, cR, hg⟩ := h0
  obtain ⟨g1, gR1, c1, cR1, hg1⟩ := h1
  intro a aR X δ ha haR hX hδ hXa hda
  obtain ⟨k1, k2⟩ := mapAx_accurate (m := m0) (ax := ax0) z0 z1 hX hδ p0.1 p0.2 hg (ha.2.2.trans haR.2.2.symm)
    (by rw [ha.2.2]; exact e0) hXa hda
  have G := good_mapAx g m0 ax0 ha.2.2
  have GR := good_mapAx gR m0 ax0 haR.2.2
  have q := p0.2
  have q' := p0.1
  obtain ⟨l1, l2⟩ := mapAx_accurate (m := m1) (ax := ax1) z1 z2 (by positivity) (by positivity) p1.1 p1.2 hg1 (G.2.2.trans GR.2.2.symm)
    (by rw [G.2.2]; exact e1) k1 k2
  refine ⟨_, _, hM g g1 c c1 a ha, hMR gR gR1 cR cR1 aR haR, good_mapAx _ _ _ G.2.2, good_mapAx _ _ _ GR.2.2,
    l1.mono (le_of_eq ?_), l2.mono (le_of_eq ?_)⟩ <;> simp only [Amp.andThen] <;> ring

theorem accurateOn_three {f0 : List D0 → List D1 → Res (List D1)} {f0R : List E0 → List E1 → Res (List E1)}
    {f1 : List D1 → List D2 → Res (List D2)} {f1R : List E1 → List E2 → Res (List E2)}
    {f2 : List D2 → List D3 → Res (List D3)} {f2R : List E2 → List E3 → Res (List E3)}
    {n0 m0 ax0 n1 m1 ax1 n2 m2 ax2 : ℕ} {a0 a1 a2 : Amp}
    (h0 : Accurate v0 v1 f0 f0R n0 m0 a0.gain a0.err) (h1 : Accurate v1 v2 f1 f1R n1 m1 a1.gain a1.err)
    (h2 : Accurate v2 v3 f2 f2R n2 m2 a2.gain a2.err)
    (p0 : a0.Nonneg) (p1 : a1.Nonneg) (p2 : a2.Nonneg) (z0 : v0 0 = 0) (z1 : v1 0 = 0) (z2 : v2 0 = 0) (z3 : v3 0 = 0)
    {sh sh' : List ℕ} (e0 : sh.getD ax0 0 = n0) (e1 : (sh.set ax0 m0).getD ax1 0 = n1)
    (e2 : ((sh.set ax0 m0).set ax1 m1).getD ax2 0 = n2) (hsh : ((sh.set ax0 m0).set ax1 m1).set ax2 m2 = sh')
    {M : Arr D0 → Res (Arr D3)} {MR : Arr E0 → Res (Arr E3)}
    (hM : ∀ g g1 g2, Computes f0 n0 m0 g → Computes f1 n1 m1 g1 → Computes f2 n2 m2 g2 → ∀ a, Good a sh →
      M a = ok (mapAx g2 m2 ax2 (mapAx g1 m1 ax1 (mapAx g m0 ax0 a))))
    (hMR : ∀ g g1 g2, Computes f0R n0 m0 g → Computes f1R n1 m1 g1 → Computes f2R n2 m2 g2 → ∀ a, Good a sh →
      MR a = ok (mapAx g2 m2 ax2 (mapAx g1 m1 ax1 (mapAx g m0 ax0 a)))) :
    AccurateOn v0 v3 M MR sh sh' ((a0.andThen a1).andThen a2).gain ((a0.andThen a1).andThen a2).err := by
  subst hsh
  obtain ⟨g, gR, c, cR, hg⟩ := h0
  obtain ⟨g1, gR1, c1, cR1, hg1⟩ := h1
  obtain ⟨g2, gR2, c2, cR2, hg2⟩ := h2
  intro a aR X δ ha haR hX hδ hXa hda
  obtain ⟨k1, k2⟩ := mapAx_accurate (m := m0) (ax := ax0) z0 z1 hX hδ p0.1 p0.2 hg (ha.2.2.trans haR.2.2.symm)
    (by rw [ha.2.2]; exact e0) hXa hda
  have G := good_mapAx g m0 ax0 ha.2.2
  have GR := good_mapAx gR m0 ax0 haR.2.2
  have q := p0.2
  have q' := p0.1
  have r := p1.2
  have r' := p1.1
  obtain ⟨l1, l2⟩ := mapAx_accurate (m := m1) (ax := ax1) z1 z2 (by positivity) (by positivity) p1.1 p1.2 hg1 (G.2.2.trans GR.2.2.symm)
    (by rw [G.2.2]; exact e1) k1 k2
  have H := good_mapAx g1 m1 ax1 G.2.2
  have HR := good_mapAx gR1 m1 ax1 GR.2.2
  obtain ⟨j1, j2⟩ := mapAx_accurate (m := m2) (ax := ax2) z2 z3 (by positivity) (by positivity) p2.1 p2.2 hg2 (H.2.2.trans HR.2.2.symm)
    (by rw [H.2.2]; exact e2) l1 l2
  refine ⟨_, _, hM g g1 g2 c c1 c2 a ha, hMR gR gR1 gR2 cR cR1 cR2 aR haR, good_mapAx _ _ _ H.2.2, good_mapAx _ _ _ HR.2.2,
    j1.mono (le_of_eq ?_), j2.mono (le_of_eq ?_)⟩ <;> simp only [Amp.andThen] <;> ring

end
end Verif
