/- Composition of accurate methods; arrays of samples. -/
import Verif.Spec.Total
import Verif.Proof.AccurateSpaces

namespace Verif
open Res Spec

/-- values of a function on a grid of two dimensions -/
def sample2 (n0 n1 : ℕ) {E : Type} (F : ℕ → ℕ → E) : Arr E :=
  ⟨[n0, n1], (List.range (n0 * n1)).map (fun i => F (i / n1) (i % n1)), true⟩

theorem sample2_good {n0 n1 : ℕ} {E : Type} (F : ℕ → ℕ → E) : Good (sample2 n0 n1 F) [n0, n1] := by
  refine ⟨?_, rfl, rfl⟩
  simp [Arr.WF, sample2]

theorem flat2 (n0 n1 p q : ℕ) : flat [n0, n1] [p, q] = p * n1 + q := by simp [flat]

theorem flat2_lt {n0 n1 p q : ℕ} (hp : p < n0) (hq : q < n1) : p * n1 + q < n0 * n1 :=
  calc p * n1 + q < p * n1 + n1 := by omega
    _ = (p + 1) * n1 := by ring
    _ ≤ n0 * n1 := Nat.mul_le_mul_right _ hp

theorem sample2_at {n0 n1 p q : ℕ} {E : Type} [Zero E] (F : ℕ → ℕ → E) (hp : p < n0) (hq : q < n1) :
    at_ (sample2 n0 n1 F) [p, q] = F p q := by
  have hn : 0 < n1 := by omega
  show nth _ (flat [n0, n1] [p, q]) = _
  rw [flat2]
  refine (nth_map_range _ _ _ (flat2_lt hp hq)).trans ?_
  rw [Nat.add_comm, Nat.add_mul_div_right _ _ hn, Nat.div_eq_of_lt hq, Nat.zero_add, Nat.add_mul_mod_self_right,
    Nat.mod_eq_of_lt hq]

theorem good2_length {n0 n1 : ℕ} {E : Type} {a : Arr E} (h : Good a [n0, n1]) : a.data.length = n0 * n1 := by
  have := h.1
  unfold Arr.WF at this
  rw [h.2.2] at this
  simpa using this

theorem good2_at {n0 n1 : ℕ} {E : Type} [Zero E] {a : Arr E} (h : Good a [n0, n1]) (p q : ℕ) :
    at_ a [p, q] = nth a.data (p * n1 + q) := by
  show nth _ (flat a.shape _) = _
  rw [h.2.2, flat2]

theorem index2 {n0 n1 i : ℕ} (h : i < n0 * n1) : ∃ p q, p < n0 ∧ q < n1 ∧ i = p * n1 + q := by
  have hn : 0 < n1 := by
    rcases Nat.eq_zero_or_pos n1 with rfl | h'
    · simp at h
    · exact h'
  exact ⟨i / n1, i % n1, (Nat.div_lt_iff_lt_mul hn).mpr h, Nat.mod_lt _ hn, by rw [Nat.mul_comm]; exact (Nat.div_add_mod i n1).symm⟩

section
variable {D0 D1 D2 E0 E1 E2 : Type} [NormedAddCommGroup E0] [NormedAddCommGroup E1] [NormedAddCommGroup E2]
  {v0 : D0 → E0} {v1 : D1 → E1} {v2 : D2 → E2}

theorem Spec.AccurateOn.andThen {M : Arr D0 → Res (Arr D1)} {MR : Arr E0 → Res (Arr E1)} {N : Arr D1 → Res (Arr D2)}
    {NR : Arr E1 → Res (Arr E2)} {sh sh' sh'' : List ℕ} {a b : Amp} (h : AccurateOn v0 v1 M MR sh sh' a.gain a.err)
    (k : AccurateOn v1 v2 N NR sh' sh'' b.gain b.err) (pa : a.Nonneg) :
    AccurateOn v0 v2 (fun x => M x >>= N) (fun x => MR x >>= NR) sh sh'' (a.andThen b).gain (a.andThen b).err := by
  intro x xR X δ hx hxR hX hδ hb hd
  obtain ⟨r, rR, e1, e2, g1, g2, b1, d1⟩ := h x xR X δ hx hxR hX hδ hb hd
  have p1 := pa.1
  have p2 := pa.2
  obtain ⟨s, sR, f1, f2, g3, g4, b2, d2⟩ := k r rR (a.gain * X) (a.err * (X + δ) + a.gain * δ) g1 g2 (by positivity)
    (by positivity) b1 d1
  refine ⟨s, sR, by show M x >>= N = _; rw [e1]; exact f1, by show MR xR >>= NR = _; rw [e2]; exact f2, g3, g4, ?_, ?_⟩
  · have e : (a.andThen b).gain * X = b.gain * (a.gain * X) := by simp only [Amp.andThen]; ring
    rw [e]; exact b2
  · have e : (a.andThen b).err * (X + δ) + (a.andThen b).gain * δ =
        b.err * (a.gain * X + (a.err * (X + δ) + a.gain * δ)) + b.gain * (a.err * (X + δ) + a.gain * δ) := by
      simp only [Amp.andThen]; ring
    rw [e]; exact d2

/-- From samples on a grid of two dimensions to entries of the result. -/
theorem total2 [Zero D0] [Zero D2] {M : Arr D0 → Res (Arr D2)} {MR : Arr E0 → Res (Arr E2)} {n0 n1 m0 m1 : ℕ} {L e : ℝ}
    (h : AccurateOn v0 v2 M MR [n0, n1] [m0, m1] L e) (z0 : v0 0 = 0) (z2 : v2 0 = 0) {F : ℕ → ℕ → E0} {X ε : ℝ} (hX : 0 ≤ X)
    (hε : 0 ≤ ε) (hF : ∀ p < n0, ∀ q < n1, ‖F p q‖ ≤ X) {x : Arr D0} (hx : Good x [n0, n1])
    (hxF : ∀ p < n0, ∀ q < n1, ‖v0 (at_ x [p, q]) - F p q‖ ≤ ε) :
    ∃ r rR, M x = ok r ∧ MR (sample2 n0 n1 F) = ok rR ∧ Good r [m0, m1] ∧
      ∀ p < m0, ∀ q < m1, ‖v2 (at_ r [p, q]) - at_ rR [p, q]‖ ≤ e * (X + ε) + L * ε := by
  have gs := sample2_good (n0 := n0) (n1 := n1) F
  obtain ⟨r, rR, e1, e2, g1, g2, -, d⟩ := h x (sample2 n0 n1 F) X ε hx gs hX hε (by
    intro y hy
    obtain ⟨i, hi, rfl⟩ := List.getElem_of_mem hy
    rw [good2_length gs] at hi
    obtain ⟨p, q, hp, hq, rfl⟩ := index2 hi
    rw [← nth_eq_getElem, ← good2_at gs, sample2_at F hp hq]
    exact hF p hp q hq) ⟨by rw [List.length_map, good2_length hx, good2_length gs], by
    intro i hi
    rw [List.length_map, good2_length hx] at hi
    obtain ⟨p, q, hp, hq, rfl⟩ := index2 hi
    rw [nth_mapv z0, ← good2_at hx, ← good2_at gs, sample2_at F hp hq]
    exact hxF p hp q hq⟩
  refine ⟨r, rR, e1, e2, g1, fun p hp q hq => ?_⟩
  have := d.2 (p * m1 + q) (by rw [List.length_map, good2_length g1]; exact flat2_lt hp hq)
  rwa [nth_mapv z2, ← good2_at g1, ← good2_at g2] at this

/-- Three methods in a row, against a run of the exact ones. -/
theorem total3 {D3 E3 : Type} [NormedAddCommGroup E3] {v3 : D3 → E3} [Zero D0] [Zero D3]
    {M1 : Arr D0 → Res (Arr D1)} {M2 : Arr D1 → Res (Arr D2)} {M3 : Arr D2 → Res (Arr D3)}
    {N1 : Arr E0 → Res (Arr E1)} {N2 : Arr E1 → Res (Arr E2)} {N3 : Arr E2 → Res (Arr E3)} {n0 n1 m0 m1 : ℕ} {sh sh' : List ℕ}
    {a b c : Amp} (h1 : AccurateOn v0 v1 M1 N1 [n0, n1] sh a.gain a.err) (h2 : AccurateOn v1 v2 M2 N2 sh sh' b.gain b.err)
    (h3 : AccurateOn v2 v3 M3 N3 sh' [m0, m1] c.gain c.err) (pa : a.Nonneg) (pb : b.Nonneg) (z0 : v0 0 = 0) (z3 : v3 0 = 0)
    {F : ℕ → ℕ → E0} {X ε : ℝ} (hX : 0 ≤ X) (hε : 0 ≤ ε) (hF : ∀ p < n0, ∀ q < n1, ‖F p q‖ ≤ X) {x : Arr D0}
    (hx : Good x [n0, n1]) (hxF : ∀ p < n0, ∀ q < n1, ‖v0 (at_ x [p, q]) - F p q‖ ≤ ε) {r s t}
    (e1 : N1 (sample2 n0 n1 F) = ok r) (e2 : N2 r = ok s) (e3 : N3 s = ok t) :
    ∃ v g w, M1 x = ok v ∧ M2 v = ok g ∧ M3 g = ok w ∧ Good w [m0, m1] ∧
      ∀ p < m0, ∀ q < m1, ‖v3 (at_ w [p, q]) - at_ t [p, q]‖ ≤ ((a.andThen b).andThen c).bound X ε := by
  obtain ⟨w, wR, f1, f2, g, k⟩ := total2 ((h1.andThen h2 pa).andThen h3 (pa.andThen pb)) z0 z3 hX hε hF hx hxF
  have : (N1 (sample2 n0 n1 F) >>= N2) >>= N3 = ok wR := f2
  rw [e1, bind_ok, e2, bind_ok, e3] at this
  obtain rfl := Res.ok.inj this
  have f1' : (M1 x >>= M2) >>= M3 = ok w := f1
  cases j1 : M1 x with
  | err e => rw [j1] at f1'; exact absurd f1' (by rintro ⟨⟩)
  | ok v =>
    rw [j1, bind_ok] at f1'
    cases j2 : M2 v with
    | err e => rw [j2] at f1'; exact absurd f1' (by rintro ⟨⟩)
    | ok u =>
      rw [j2, bind_ok] at f1'
      exact ⟨v, u, w, rfl, j2, f1', g, k⟩

/-- The same for slices. -/
theorem total1 {D3 E3 : Type} [NormedAddCommGroup E3] {v3 : D3 → E3} [Zero D0] [Zero D3] {n m m' m'' : ℕ}
    {M1 : List D0 → List D1 → Res (List D1)} {M2 : List D1 → List D2 → Res (List D2)} {M3 : List D2 → List D3 → Res (List D3)}
    {N1 : List E0 → List E1 → Res (List E1)} {N2 : List E1 → List E2 → Res (List E2)} {N3 : List E2 → List E3 → Res (List E3)}
    {a b c : Amp} (h1 : Accurate v0 v1 M1 N1 n m a.gain a.err) (h2 : Accurate v1 v2 M2 N2 m m' b.gain b.err)
    (h3 : Accurate v2 v3 M3 N3 m' m'' c.gain c.err) (pa : a.Nonneg) (pb : b.Nonneg) (z0 : v0 0 = 0) (z3 : v3 0 = 0)
    {xR : List E0} {X ε : ℝ} (hX : 0 ≤ X) (hε : 0 ≤ ε) (hlR : xR.length = n) (hF : ∀ j < n, ‖nth xR j‖ ≤ X) {x : List D0}
    (hx : x.length = n) (hxF : ∀ j < n, ‖v0 (nth x j) - nth xR j‖ ≤ ε) {o o' o''} {r s t}
    (ho : o.length = m) (ho' : o'.length = m') (ho'' : o''.length = m'') {q q' q''} (hq : q.length = m) (hq' : q'.length = m')
    (hq'' : q''.length = m'') (e1 : N1 xR q = ok r) (e2 : N2 r q' = ok s) (e3 : N3 s q'' = ok t) :
    ∃ v g w, M1 x o = ok v ∧ M2 v o' = ok g ∧ M3 g o'' = ok w ∧ w.length = m'' ∧
      ∀ j < m'', ‖v3 (nth w j) - nth t j‖ ≤ ((a.andThen b).andThen c).bound X ε := by
  obtain ⟨g1, k1, c1, d1, h1⟩ := h1
  obtain ⟨g2, k2, c2, d2, h2⟩ := h2
  obtain ⟨g3, k3, c3, d3, h3⟩ := h3
  obtain rfl := Res.ok.inj (e1.symm.trans (d1 xR q hlR hq).1)
  obtain rfl := Res.ok.inj (e2.symm.trans (d2 _ q' (d1 xR q hlR hq).2 hq').1)
  obtain rfl := Res.ok.inj (e3.symm.trans (d3 _ q'' (d2 _ q' (d1 xR q hlR hq).2 hq').2 hq'').1)
  have l1 := (c1 x o hx ho).2
  have l2 := (c2 _ o' l1 ho').2
  have p1 := pa.1
  have p2 := pa.2
  have p3 := pb.1
  have p4 := pb.2
  obtain ⟨b1, f1⟩ := h1 x xR X ε hx hX hε (by
    intro y hy
    obtain ⟨i, hi, rfl⟩ := List.getElem_of_mem hy
    rw [← nth_eq_getElem]; exact hF i (by omega)) ⟨by rw [List.length_map]; omega, fun i hi => by
      rw [List.length_map] at hi
      rw [nth_mapv z0]; exact hxF i (by omega)⟩
  obtain ⟨b2, f2⟩ := h2 _ _ _ _ l1 (by positivity) (by positivity) b1 f1
  obtain ⟨-, f3⟩ := h3 _ _ _ _ l2 (by positivity) (by positivity) b2 f2
  refine ⟨_, _, _, (c1 x o hx ho).1, (c2 _ o' l1 ho').1, (c3 _ o'' l2 ho'').1, (c3 _ o'' l2 ho'').2, fun j hj => ?_⟩
  have := f3.2 j (by rw [List.length_map, (c3 _ o'' l2 ho'').2]; exact hj)
  rw [nth_mapv z3] at this
  refine this.trans (le_of_eq ?_)
  simp only [Amp.bound, Amp.andThen]
  ring

end
end Verif
