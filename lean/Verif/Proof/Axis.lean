/-
Lanes of multidimensional arrays; correctness of the axis operators.
-/
import Verif.Spec.Arr
import Verif.Spec.Ops
import Verif.Core.Tac
import Mathlib.Tactic.Ring
import Mathlib.Tactic.Linarith
import Mathlib.Data.List.Count
import Mathlib.Data.List.Perm.Basic

namespace Verif
open Res Spec

/-! ### index arithmetic -/

theorem getD_lt {l : List ℕ} {i : ℕ} (h : i < l.length) : l.getD i 0 = l[i] :=
  nth_eq_getElem l i h

theorem flat_lt : ∀ {sh idx : List ℕ}, InBounds sh idx → flat sh idx < sh.prod
  | [], [], _ => by simp [flat]
  | n :: sh, i :: idx, h => by
    rw [InBounds, List.forall₂_cons] at h
    have := flat_lt (sh := sh) h.2
    simp only [flat, List.prod_cons]
    have h1 : (i + 1) * sh.prod ≤ n * sh.prod := Nat.mul_le_mul_right _ h.1
    rw [Nat.add_mul, Nat.one_mul] at h1
    omega
  | [], _ :: _, h => by cases h
  | _ :: _, [], h => by cases h

theorem flat_surj : ∀ (sh : List ℕ) {p : ℕ}, p < sh.prod → ∃ idx, InBounds sh idx ∧ flat sh idx = p
  | [], p, h => ⟨[], List.Forall₂.nil, by simp at h; simp [flat, h]⟩
  | n :: sh, p, h => by
    simp only [List.prod_cons] at h
    have hs : 0 < sh.prod := by
      rcases Nat.eq_zero_or_pos sh.prod with h0 | h0
      · rw [h0] at h; simp at h
      · exact h0
    obtain ⟨idx, h1, h2⟩ := flat_surj sh (Nat.mod_lt p hs)
    refine ⟨p / sh.prod :: idx, List.Forall₂.cons ?_ h1, ?_⟩
    · exact Nat.div_lt_of_lt_mul (by rwa [Nat.mul_comm])
    · simp only [flat, h2]
      rw [Nat.mul_comm]; exact Nat.div_add_mod _ _

theorem prod_eraseIdx_mul : ∀ {sh : List ℕ} {ax : ℕ}, ax < sh.length →
    (sh.eraseIdx ax).prod * sh.getD ax 0 = sh.prod
  | n :: sh, 0, _ => by simp [Nat.mul_comm]
  | n :: sh, ax + 1, h => by
    have := prod_eraseIdx_mul (sh := sh) (ax := ax) (by simpa using h)
    simp only [List.eraseIdx_cons_succ, List.prod_cons, List.getD_cons_succ]
    rw [Nat.mul_assoc, this]

theorem inner_dvd : ∀ {sh : List ℕ} {ax : ℕ}, ax < sh.length →
    ∃ o, (sh.eraseIdx ax).prod = o * innerSize sh ax
  | n :: sh, 0, _ => ⟨1, by simp [innerSize]⟩
  | n :: sh, ax + 1, h => by
    obtain ⟨o, ho⟩ := inner_dvd (sh := sh) (ax := ax) (by simpa using h)
    refine ⟨n * o, ?_⟩
    simp only [List.eraseIdx_cons_succ, List.prod_cons, ho, innerSize, List.drop_succ_cons]
    ring

/-- Row-major position of a multi-index in terms of lane and position. -/
theorem flat_set : ∀ {sh idx : List ℕ} {ax : ℕ}, ax < sh.length →
    InBounds (sh.eraseIdx ax) (idx.eraseIdx ax) → idx.length = sh.length → ∀ k,
    flat sh (idx.set ax k)
      = laneAddr (sh.getD ax 0) (innerSize sh ax) (flat (sh.eraseIdx ax) (idx.eraseIdx ax)) k
  | n :: sh, i :: idx, 0, _, hb, _, k => by
    have hb' : InBounds sh idx := hb
    have hlt := flat_lt hb'
    simp only [List.set_cons_zero, flat, List.eraseIdx_cons_zero, laneAddr, innerSize,
      List.drop_succ_cons, List.drop_zero, List.getD_cons_zero]
    rw [Nat.div_eq_of_lt hlt, Nat.mod_eq_of_lt hlt]
    ring
  | n :: sh, i :: idx, ax + 1, h, hb, hl, k => by
    have h' : ax < sh.length := by simpa using h
    simp only [List.eraseIdx_cons_succ] at hb
    rw [InBounds, List.forall₂_cons] at hb
    have hl' : idx.length = sh.length := by simpa using hl
    have ih := flat_set h' hb.2 hl' k
    obtain ⟨o, ho⟩ := inner_dvd h'
    have hp := prod_eraseIdx_mul h'
    have hlt := flat_lt hb.2
    have hin : 0 < innerSize sh ax := by
      rcases Nat.eq_zero_or_pos (innerSize sh ax) with h0 | h0
      · rw [ho, h0] at hlt; simp at hlt
      · exact h0
    simp only [List.set_cons_succ, flat, List.eraseIdx_cons_succ, List.getD_cons_succ, ih]
    have hI : innerSize (n :: sh) (ax + 1) = innerSize sh ax := rfl
    rw [hI]
    unfold laneAddr
    rw [← hp, ho]
    set I := innerSize sh ax with hIdef
    set l' := flat (sh.eraseIdx ax) (idx.eraseIdx ax)
    rw [show i * (o * I) + l' = l' + (i * o) * I by ring, Nat.add_mul_div_right _ _ hin,
      Nat.add_mul_mod_self_right]
    ring
  | [], _, _, h, _, _, _ => by simp at h
  | _ :: _, [], _, _, _, hl, _ => by simp at hl

theorem Spec.InBounds.length {sh idx : List ℕ} (h : InBounds sh idx) : idx.length = sh.length :=
  List.Forall₂.length_eq h

theorem Spec.InBounds.get {sh idx : List ℕ} (h : InBounds sh idx) {ax : ℕ} (hax : ax < sh.length) :
    idx.getD ax 0 < sh.getD ax 0 := by
  have hl := h.length
  rw [getD_lt (show ax < idx.length by omega), getD_lt hax]
  exact List.Forall₂.get h _ _

theorem Spec.InBounds.erase : ∀ {sh idx : List ℕ} (_ : InBounds sh idx) (ax : ℕ),
    InBounds (sh.eraseIdx ax) (idx.eraseIdx ax)
  | [], [], _, _ => List.Forall₂.nil
  | n :: sh, i :: idx, h, 0 => by rw [InBounds, List.forall₂_cons] at h; exact h.2
  | n :: sh, i :: idx, h, ax + 1 => by
    rw [InBounds, List.forall₂_cons] at h
    exact List.Forall₂.cons h.1 (Spec.InBounds.erase h.2 ax)
  | [], _ :: _, h, _ => by cases h
  | _ :: _, [], h, _ => by cases h

theorem Spec.InBounds.set : ∀ {sh idx : List ℕ} (_ : InBounds sh idx) (ax : ℕ) {k m : ℕ}
    (_ : k < m), InBounds (sh.set ax m) (idx.set ax k)
  | [], [], _, _, _, _, _ => List.Forall₂.nil
  | n :: sh, i :: idx, h, 0, _, _, hk => by
    rw [InBounds, List.forall₂_cons] at h; exact List.Forall₂.cons hk h.2
  | n :: sh, i :: idx, h, ax + 1, _, _, hk => by
    rw [InBounds, List.forall₂_cons] at h
    exact List.Forall₂.cons h.1 (Spec.InBounds.set h.2 ax hk)
  | [], _ :: _, h, _, _, _, _ => by cases h
  | _ :: _, [], h, _, _, _, _ => by cases h

theorem set_getD_self (idx : List ℕ) (ax : ℕ) : idx.set ax (idx.getD ax 0) = idx := by
  induction idx generalizing ax with
  | nil => simp
  | cons i t ih =>
    cases ax with
    | zero => simp
    | succ ax => rw [List.getD_cons_succ, List.set_cons_succ, ih]

@[simp] theorem eraseIdx_set_self (l : List ℕ) (ax k : ℕ) : (l.set ax k).eraseIdx ax = l.eraseIdx ax := by
  induction l generalizing ax with
  | nil => simp
  | cons i t ih => cases ax <;> simp [ih]

@[simp] theorem innerSize_set (sh : List ℕ) (ax k : ℕ) : innerSize (sh.set ax k) ax = innerSize sh ax := by
  unfold innerSize
  rw [List.drop_set_of_lt (by omega)]

theorem getD_set_self (sh : List ℕ) {ax : ℕ} (k : ℕ) (h : ax < sh.length) :
    (sh.set ax k).getD ax 0 = k := by
  rw [getD_lt (show ax < (sh.set ax k).length by simpa)]; simp

/-! ### lane addressing -/

/-- Lane sets: `L = o * inner` lanes of extent `n`. -/
theorem laneAddr_lt {n inner o l k : ℕ} (hl : l < o * inner) (hk : k < n) :
    laneAddr n inner l k < o * inner * n := by
  unfold laneAddr
  have hin : 0 < inner := by
    rcases Nat.eq_zero_or_pos inner with h | h
    · rw [h] at hl; simp at hl
    · exact h
  have h1 : l / inner < o := Nat.div_lt_of_lt_mul (by rwa [Nat.mul_comm] at hl)
  have h2 : l % inner < inner := Nat.mod_lt _ hin
  have h3 : (l / inner + 1) * n ≤ o * n := Nat.mul_le_mul_right _ h1
  have h4 : (l / inner * n + k + 1) * inner ≤ (o * n) * inner := Nat.mul_le_mul_right _ (by
    rw [Nat.add_mul, Nat.one_mul] at h3; omega)
  calc (l / inner * n + k) * inner + l % inner < (l / inner * n + k + 1) * inner := by
        rw [Nat.add_mul (l / inner * n + k), Nat.one_mul]; omega
    _ ≤ o * n * inner := h4
    _ = o * inner * n := by ring

theorem laneAddr_inj {n inner o l k l' k' : ℕ} (hl : l < o * inner) (hk : k < n)
    (hk' : k' < n) (h : laneAddr n inner l k = laneAddr n inner l' k') : l = l' ∧ k = k' := by
  unfold laneAddr at h
  have hin : 0 < inner := by
    rcases Nat.eq_zero_or_pos inner with h | h
    · rw [h] at hl; simp at hl
    · exact h
  have h2 : l % inner < inner := Nat.mod_lt _ hin
  have h2' : l' % inner < inner := Nat.mod_lt _ hin
  have e1 : l % inner = l' % inner := by
    have := congrArg (· % inner) h
    simpa [Nat.add_mod, Nat.mul_mod_left, Nat.mod_mod] using this
  have e2 : l / inner * n + k = l' / inner * n + k' := by
    rw [e1] at h
    have := Nat.add_right_cancel h
    exact Nat.eq_of_mul_eq_mul_right hin this
  have e3 : k = k' := by
    have := congrArg (· % n) e2
    simpa [Nat.add_mod, Nat.mul_mod_left, Nat.mod_mod, Nat.mod_eq_of_lt hk, Nat.mod_eq_of_lt hk']
      using this
  have e4 : l / inner = l' / inner := by
    rw [e3] at e2
    exact Nat.eq_of_mul_eq_mul_right (by omega) (Nat.add_right_cancel e2)
  refine ⟨?_, e3⟩
  rw [← Nat.div_add_mod l inner, ← Nat.div_add_mod l' inner, e1, e4]

section
variable {S T : Type} [Zero S] [Zero T]

@[simp] theorem getLane_length (n inner : ℕ) (d : List T) (l : ℕ) :
    (getLane n inner d l).length = n := by simp [getLane]

theorem nth_getLane {n inner : ℕ} (d : List T) (l : ℕ) {k : ℕ} (hk : k < n) :
    nth (getLane n inner d l) k = nth d (laneAddr n inner l k) := nth_map_range _ _ _ hk

theorem setLane_aux {n inner o l : ℕ} (hl : l < o * inner) (src : List T) (d : List T)
    (hd : d.length = o * inner * n) (c : ℕ) (hc : c ≤ n) :
    ∃ d', (List.range c).foldl (fun d k => d.set (laneAddr n inner l k) (nth src k)) d = d' ∧
      d'.length = d.length ∧ ∀ l' < o * inner, ∀ k < n,
        nth d' (laneAddr n inner l' k) = if l' = l ∧ k < c then nth src k
          else nth d (laneAddr n inner l' k) := by
  induction c with
  | zero => exact ⟨d, rfl, rfl, fun l' _ k _ => by simp⟩
  | succ c ih =>
    obtain ⟨d', h1, h2, h3⟩ := ih (by omega)
    refine ⟨d'.set (laneAddr n inner l c) (nth src c), ?_, by simp [h2], ?_⟩
    · rw [List.range_succ, List.foldl_append, h1]; rfl
    · intro l' hl' k hk
      rw [nth_set, h3 l' hl' k hk]
      by_cases hh : l' = l ∧ k = c
      · obtain ⟨rfl, rfl⟩ := hh
        rw [if_pos ⟨rfl, by rw [h2, hd]; exact laneAddr_lt hl' hk⟩, if_pos ⟨rfl, by omega⟩]
      · rw [if_neg]
        · by_cases hl2 : l' = l
          · have : k ≠ c := fun h => hh ⟨hl2, h⟩
            by_cases hkc : k < c
            · rw [if_pos ⟨hl2, hkc⟩, if_pos ⟨hl2, by omega⟩]
            · rw [if_neg (by tauto), if_neg (by rintro ⟨-, h⟩; omega)]
          · rw [if_neg (by tauto), if_neg (by tauto)]
        · rintro ⟨he, -⟩
          obtain ⟨e1, e2⟩ := laneAddr_inj hl (by omega) hk he
          exact hh ⟨e1.symm, e2.symm⟩

theorem setLane_spec {n inner o l : ℕ} (hl : l < o * inner) (src d : List T)
    (hs : src.length = n) (hd : d.length = o * inner * n) :
    (setLane n inner l src d).length = d.length ∧ ∀ l' < o * inner, ∀ k < n,
      nth (setLane n inner l src d) (laneAddr n inner l' k)
        = if l' = l then nth src k else nth d (laneAddr n inner l' k) := by
  obtain ⟨d', h1, h2, h3⟩ := setLane_aux hl src d hd n le_rfl
  unfold setLane
  rw [hs, Nat.min_self, h1]
  refine ⟨h2, fun l' hl' k hk => ?_⟩
  rw [h3 l' hl' k hk]
  simp [hk]

theorem mapLanes_of_addr {sh : List ℕ} {ax n m : ℕ} (hax : ax < sh.length)
    (hn : sh.getD ax 0 = n) {a : Arr S} (ha : a.shape = sh) {g : List S → List T}
    {data : List T} (hlen : data.length = (sh.set ax m).prod)
    (h : ∀ l < laneCount sh ax, ∀ k < m, nth data (laneAddr m (innerSize sh ax) l k)
      = nth (g (getLane n (innerSize sh ax) a.data l)) k) :
    MapsLanes g m a ax ⟨sh.set ax m, data, true⟩ := by
  refine ⟨by rw [ha], hlen, rfl, fun idx hidx => ?_⟩
  have hl := hidx.length
  simp only [List.length_set] at hl
  have hbe := hidx.erase ax
  rw [eraseIdx_set_self] at hbe
  have hk : idx.getD ax 0 < m := by
    have := hidx.get (ax := ax) (by simpa)
    rwa [getD_set_self _ _ hax] at this
  have hfl := flat_lt hbe
  have e1 : flat (sh.set ax m) idx
      = laneAddr m (innerSize sh ax) (flat (sh.eraseIdx ax) (idx.eraseIdx ax)) (idx.getD ax 0) := by
    conv_lhs => rw [← set_getD_self idx ax]
    rw [flat_set (by simpa) (by rw [eraseIdx_set_self]; exact hbe) (by simpa using hl),
      getD_set_self _ _ hax, innerSize_set, eraseIdx_set_self]
  unfold at_
  dsimp only
  rw [e1, h _ hfl _ hk]
  congr 2
  unfold laneAt getLane
  rw [ha, hn]
  refine List.map_congr_left (fun k _ => ?_)
  unfold at_
  rw [ha, flat_set hax hbe hl, hn]

theorem axisChecks_ok {l1 l2 : ℕ} {a : Arr S} {out : Arr T} {ax : ℕ} (hs : a.std = true)
    (hs' : out.std = true) (hax : ax < a.shape.length) (hn : a.shape.getD ax 0 = l1)
    (hsh : out.shape = a.shape.set ax l2) : axisChecks l1 l2 a out ax = ok () := by
  have h1 : shapeAt a.shape ax = ok l1 := by
    unfold shapeAt rdC
    rw [List.getElem?_eq_getElem hax, ← hn, getD_lt hax]
  have h2 : shapeAt out.shape ax = ok l2 := by
    unfold shapeAt rdC
    rw [hsh, List.getElem?_eq_getElem (by simpa)]; simp
  unfold axisChecks checkArrayAxis
  rw [h1, h2]
  have h3 : (a.shape.length -! 1) = ok (a.shape.length - 1) := by
    unfold usub; rw [if_pos (by omega)]
  rw [h3]
  simp [assertR, hs, hs', hsh]

theorem shapeAt_ok {sh : List ℕ} {ax : ℕ} (h : ax < sh.length) : shapeAt sh ax = ok (sh.getD ax 0) := by
  unfold shapeAt rdC
  rw [List.getElem?_eq_getElem h, getD_lt h]

/-- Serial loop over lanes, in any order covering each lane. -/
theorem forList_lanes {σ : Type} {n m inner o : ℕ} (order : List ℕ)
    (hord : ∀ l ∈ order, l < o * inner)
    (step : ℕ → σ → Res σ) (val : ℕ → List T) (hval : ∀ l < o * inner, (val l).length = m)
    (getd : σ → List T) (inv : σ → Prop)
    (hstep : ∀ l < o * inner, ∀ s, inv s → (getd s).length = o * inner * m →
      ∃ s', step l s = ok s' ∧ inv s' ∧ getd s' = setLane m inner l (val l) (getd s))
    (s : σ) (hs : inv s) (hd : (getd s).length = o * inner * m) :
    ∃ s', forList order step s = ok s' ∧ inv s' ∧ (getd s').length = o * inner * m ∧
      ∀ l < o * inner, ∀ k < m, nth (getd s') (laneAddr m inner l k)
        = if l ∈ order then nth (val l) k else nth (getd s) (laneAddr m inner l k) := by
  induction order generalizing s with
  | nil => exact ⟨s, rfl, hs, hd, fun l _ k _ => by simp⟩
  | cons i is ih =>
    have hi := hord i (by simp)
    obtain ⟨s1, h1, h2, h3⟩ := hstep i hi s hs hd
    obtain ⟨hl, hset⟩ := setLane_spec hi (val i) (getd s) (hval i hi) hd
    obtain ⟨s2, k1, k2, k3, k4⟩ := ih (fun l hl => hord l (by simp [hl])) s1 h2 (by rw [h3, hl, hd])
    refine ⟨s2, ?_, k2, k3, fun l hl k hk => ?_⟩
    · simp only [forList, h1, bind_ok]; exact k1
    · rw [k4 l hl k hk, h3, hset l hl k hk]
      by_cases hli : l = i
      · subst hli; simp
      · simp [hli]

/-- The serial operators, in any order that visits every lane. -/
theorem applyAlongAxis_ok {f : List S → List T → Res (List T)} {l1 l2 : ℕ} {g : List S → List T}
    (hf : Computes f l1 l2 g) {a : Arr S} {out : Arr T} {ax : ℕ} (hs : a.std = true)
    (hs' : out.std = true) (hw' : out.WF) (hax : ax < a.shape.length)
    (hn : a.shape.getD ax 0 = l1) (hsh : out.shape = a.shape.set ax l2) (order : List ℕ)
    (hord : order.Perm (List.range (laneCount out.shape ax))) :
    ∃ r, applyAlongAxis order f l1 l2 a out ax = ok r ∧ MapsLanes g l2 a ax r := by
  obtain ⟨osh, odata, ostd⟩ := out
  dsimp only at *
  subst hsh hs'
  have hlc : laneCount (a.shape.set ax l2) ax = laneCount a.shape ax := by
    unfold laneCount; rw [eraseIdx_set_self]
  obtain ⟨o, ho⟩ := inner_dvd hax
  have hp : (a.shape.set ax l2).prod = o * innerSize a.shape ax * l2 := by
    rw [← prod_eraseIdx_mul (sh := a.shape.set ax l2) (ax := ax) (by simpa), eraseIdx_set_self, ho,
      getD_set_self _ _ hax]
  have hdl : odata.length = o * innerSize a.shape ax * l2 := by rw [← hp]; exact hw'
  have hmem : ∀ l, l ∈ order ↔ l < o * innerSize a.shape ax := by
    intro l
    rw [hord.mem_iff, List.mem_range, hlc, ← ho]; rfl
  unfold applyAlongAxis
  rw [axisChecks_ok hs rfl hax hn rfl, shapeAt_ok hax, shapeAt_ok (by simpa), hn,
    getD_set_self _ _ hax]
  have h3 : (a.shape.length -! 1) = ok (a.shape.length - 1) := by
    unfold usub; rw [if_pos (by omega)]
  rw [h3]
  simp only [bind_ok, innerSize_set]
  set I := innerSize a.shape ax with hI
  have hfin : ∀ data : List T, data.length = o * I * l2 →
      (∀ l < o * I, ∀ k < l2, nth data (laneAddr l2 I l k)
        = if l ∈ order then nth (g (getLane l1 I a.data l)) k
          else nth odata (laneAddr l2 I l k)) →
      MapsLanes g l2 a ax ⟨a.shape.set ax l2, data, true⟩ := fun data h1 h2 =>
    mapLanes_of_addr hax hn rfl (by rw [h1, hp]) (fun l hl k hk => by
      have hl' : l < o * I := by rw [← ho]; exact hl
      rw [h2 l hl' k hk, if_pos ((hmem l).mpr hl')])
  by_cases hb : ax = a.shape.length - 1
  · rw [if_pos hb]
    obtain ⟨d, h1, -, h2, h4⟩ := forList_lanes (n := l1) (m := l2) (inner := I) (o := o) order
      (fun l hl => (hmem l).mp hl)
      (fun l data => do
        let y ← f (getLane l1 I a.data l) (getLane l2 I data l)
        pure (setLane l2 I l y data)) (fun l => g (getLane l1 I a.data l))
      (fun l _ => (hf _ (List.replicate l2 0) (getLane_length _ _ _ _) (by simp)).2) id
      (fun _ => True)
      (fun l _ s _ _ => ⟨_, by
        rw [(hf _ _ (getLane_length _ _ _ _) (getLane_length _ _ _ _)).1]; rfl, trivial, rfl⟩)
      odata trivial hdl
    refine ⟨⟨a.shape.set ax l2, d, true⟩, ?_, hfin _ h2 h4⟩
    rw [h1]; rfl
  · rw [if_neg hb]
    obtain ⟨d, h1, -, h2, h4⟩ := forList_lanes (n := l1) (m := l2) (inner := I) (o := o) order
      (fun l hl => (hmem l).mp hl)
      (fun l (s : List T × List T) => do
        let scratch ← f (getLane l1 I a.data l) s.1
        pure (scratch, setLane l2 I l scratch s.2)) (fun l => g (getLane l1 I a.data l))
      (fun l _ => (hf _ (List.replicate l2 0) (getLane_length _ _ _ _) (by simp)).2) Prod.snd
      (fun s => s.1.length = l2)
      (fun l _ s hs _ => ⟨_, by
        rw [(hf _ _ (getLane_length _ _ _ _) hs).1]; rfl,
        (hf _ (List.replicate l2 0) (getLane_length _ _ _ _) (by simp)).2, rfl⟩)
      (List.replicate l2 0, odata) (by simp) hdl
    refine ⟨⟨a.shape.set ax l2, d.2, true⟩, ?_, hfin _ h2 h4⟩
    rw [h1]; rfl

/-- State of a parallel run after a prefix of the schedule in which lane `l` occurred `c l`
times. -/
def ParInv (m inner o : ℕ) (val : ℕ → List T) (d0 : List T) (c : ℕ → ℕ) (s : ParState T) : Prop :=
  s.data.length = o * inner * m ∧
  (∀ l < o * inner, s.task l = if c l = 0 then .todo else .writing (val l) (min (c l - 1) m)) ∧
  ∀ l < o * inner, ∀ k < m, nth s.data (laneAddr m inner l k)
    = if k < c l - 1 then nth (val l) k else nth d0 (laneAddr m inner l k)

theorem parStep_inv {n m inner o : ℕ} {f : List S → List T → Res (List T)} {g : List S → List T}
    (hf : Computes f n m g) (b : Bool) (indata : List S) (d0 : List T) {l : ℕ}
    (hl : l < o * inner) {c : ℕ → ℕ} {s : ParState T}
    (h : ParInv m inner o (fun l => g (getLane n inner indata l)) d0 c s) :
    ∃ s', parStep f b n m inner inner indata l s = ok s' ∧
      ParInv m inner o (fun l => g (getLane n inner indata l)) d0
        (Function.update c l (c l + 1)) s' := by
  obtain ⟨h1, h2, h3⟩ := h
  have hv : ∀ l, (g (getLane n inner indata l)).length = m := fun l =>
    (hf _ (List.replicate m 0) (getLane_length _ _ _ _) (by simp)).2
  unfold parStep
  rw [h2 l hl]
  by_cases hc : c l = 0
  · rw [if_pos hc]
    have hfe : f (getLane n inner indata l)
        (if b = true then getLane m inner s.data l else List.replicate m 0)
          = ok (g (getLane n inner indata l)) := (hf _ _ (getLane_length _ _ _ _) (by
        split <;> simp)).1
    simp only [hfe, bind_ok, pure_eq]
    refine ⟨_, rfl, h1, fun l' hl' => ?_, fun l' hl' k hk => ?_⟩
    · by_cases e : l' = l
      · subst e; simp [hc]
      · simp only [Function.update_of_ne e]; exact h2 l' hl'
    · rw [h3 l' hl' k hk]
      by_cases e : l' = l
      · subst e; simp [hc]
      · rw [Function.update_of_ne e]
  · rw [if_neg hc]
    simp only [hv l, Nat.min_self]
    by_cases hk : min (c l - 1) m < m
    · have hk' : c l - 1 < m := by omega
      rw [if_pos hk]
      refine ⟨_, rfl, by simp [h1], fun l' hl' => ?_, fun l' hl' k hk2 => ?_⟩
      · by_cases e : l' = l
        · subst e
          simp only [Function.update_self]
          rw [if_neg (by omega)]
          congr 1
          omega
        · simp only [Function.update_of_ne e]; exact h2 l' hl'
      · dsimp only
        have e0 : min (c l - 1) m = c l - 1 := by omega
        rw [e0, nth_set, h3 l' hl' k hk2]
        by_cases e : l' = l
        · subst e
          simp only [Function.update_self]
          by_cases e2 : k = c l' - 1
          · subst e2
            rw [if_pos ⟨rfl, by rw [h1]; exact laneAddr_lt hl' hk2⟩, if_pos (by omega)]
          · rw [if_neg]
            · by_cases e3 : k < c l' - 1
              · rw [if_pos e3, if_pos (by omega)]
              · rw [if_neg e3, if_neg (by omega)]
            · rintro ⟨he, -⟩
              exact e2 (laneAddr_inj hl' hk' hk2 he).2.symm
        · rw [if_neg, Function.update_of_ne e]
          rintro ⟨he, -⟩
          exact e (laneAddr_inj hl hk' hk2 he).1.symm
    · have hk' : m ≤ c l - 1 := by omega
      rw [if_neg hk]
      refine ⟨_, rfl, h1, fun l' hl' => ?_, fun l' hl' k hk2 => ?_⟩
      · by_cases e : l' = l
        · subst e
          rw [h2 l' hl', if_neg hc]
          simp only [Function.update_self]
          rw [if_neg (by omega)]
          congr 1
          omega
        · simp only [Function.update_of_ne e]; exact h2 l' hl'
      · rw [h3 l' hl' k hk2]
        by_cases e : l' = l
        · subst e
          simp only [Function.update_self]
          rw [if_pos (by omega), if_pos (by omega)]
        · rw [Function.update_of_ne e]

theorem parRun_inv {n m inner o : ℕ} {f : List S → List T → Res (List T)} {g : List S → List T}
    (hf : Computes f n m g) (b : Bool) (indata : List S) (d0 : List T) (sched : List ℕ)
    (hsch : ∀ l ∈ sched, l < o * inner) {c : ℕ → ℕ} {s : ParState T}
    (h : ParInv m inner o (fun l => g (getLane n inner indata l)) d0 c s) :
    ∃ s', forList sched (fun l s => parStep f b n m inner inner indata l s) s = ok s' ∧
      ParInv m inner o (fun l => g (getLane n inner indata l)) d0
        (fun l => c l + sched.count l) s' := by
  induction sched generalizing c s with
  | nil => exact ⟨s, rfl, by simpa using h⟩
  | cons i is ih =>
    obtain ⟨s1, h1, h2⟩ := parStep_inv hf b indata d0 (hsch i (by simp)) h
    obtain ⟨s2, h3, h4⟩ := ih (fun l hl => hsch l (by simp [hl])) h2
    refine ⟨s2, by simp only [forList, h1, bind_ok]; exact h3, ?_⟩
    have : (fun l => Function.update c i (c i + 1) l + is.count l)
        = fun l => c l + (i :: is).count l := by
      funext l
      by_cases e : l = i
      · subst e; simp; omega
      · rw [Function.update_of_ne e, List.count_cons_of_ne (fun h => e h.symm)]
    rwa [this] at h4

/-- The parallel operators, along any schedule that lets every task finish. -/
theorem parApplyAlongAxis_ok {f : List S → List T → Res (List T)} {l1 l2 : ℕ}
    {g : List S → List T} (hf : Computes f l1 l2 g) {a : Arr S} {out : Arr T} {ax : ℕ}
    (hs : a.std = true) (hs' : out.std = true) (hw' : out.WF) (hax : ax < a.shape.length)
    (hn : a.shape.getD ax 0 = l1) (hsh : out.shape = a.shape.set ax l2) (sched : List ℕ)
    (hsch : FairSchedule out.shape ax sched) :
    ∃ r, parApplyAlongAxis sched f l1 l2 a out ax = ok r ∧ MapsLanes g l2 a ax r := by
  obtain ⟨osh, odata, ostd⟩ := out
  obtain ⟨hs1, hs2⟩ := hsch
  dsimp only at *
  subst hsh hs'
  have hlc : laneCount (a.shape.set ax l2) ax = laneCount a.shape ax := by
    unfold laneCount; rw [eraseIdx_set_self]
  obtain ⟨o, ho⟩ := inner_dvd hax
  have hp : (a.shape.set ax l2).prod = o * innerSize a.shape ax * l2 := by
    rw [← prod_eraseIdx_mul (sh := a.shape.set ax l2) (ax := ax) (by simpa), eraseIdx_set_self, ho,
      getD_set_self _ _ hax]
  have hdl : odata.length = o * innerSize a.shape ax * l2 := by rw [← hp]; exact hw'
  rw [hlc] at hs1 hs2
  rw [getD_set_self _ _ hax] at hs2
  have hlc2 : laneCount a.shape ax = o * innerSize a.shape ax := ho
  rw [hlc2] at hs1 hs2
  unfold parApplyAlongAxis
  rw [axisChecks_ok hs rfl hax hn rfl, shapeAt_ok hax, shapeAt_ok (by simpa), hn,
    getD_set_self _ _ hax]
  have h3 : (a.shape.length -! 1) = ok (a.shape.length - 1) := by
    unfold usub; rw [if_pos (by omega)]
  rw [h3]
  simp only [bind_ok, innerSize_set]
  set I := innerSize a.shape ax with hI
  obtain ⟨s, k1, k2, -, k3⟩ := parRun_inv (o := o) (inner := I) hf
    (decide (ax = a.shape.length - 1)) a.data odata sched hs1 (c := fun _ => 0)
    (s := ⟨fun _ => .todo, odata⟩) ⟨hdl, fun l _ => by simp, fun l _ k _ => by simp⟩
  refine ⟨⟨a.shape.set ax l2, s.data, true⟩, ?_, ?_⟩
  · rw [k1]; rfl
  · refine mapLanes_of_addr hax hn rfl (by rw [k2, hp]) (fun l hl k hk => ?_)
    have hl' : l < o * I := by rw [← ho]; exact hl
    rw [k3 l hl' k hk, if_pos]
    have := hs2 l hl'
    show k < 0 + sched.count l - 1
    omega

/-! ### arrays are determined by their elements -/

theorem arr_ext {a b : Arr T} (hs : a.shape = b.shape) (hl : a.std = b.std) (ha : a.WF) (hb : b.WF)
    (h : ∀ idx, InBounds a.shape idx → at_ a idx = at_ b idx) : a = b := by
  obtain ⟨sh, d, l⟩ := a
  obtain ⟨sh', d', l'⟩ := b
  dsimp only at hs hl
  subst hs hl
  congr 1
  have ha' : d.length = sh.prod := ha
  have hb' : d'.length = sh.prod := hb
  refine ext_nth (by rw [ha', hb']) (fun p hp => ?_)
  obtain ⟨idx, h1, h2⟩ := flat_surj sh (p := p) (by rw [← ha']; exact hp)
  rw [← h2]
  exact h idx h1

/-- Replacing the lanes determines the result. -/
theorem mapsLanes_unique {g : List S → List T} {m : ℕ} {a : Arr S} {ax : ℕ} {r r' : Arr T}
    (h : MapsLanes g m a ax r) (h' : MapsLanes g m a ax r') : r = r' := by
  obtain ⟨h1, h2, h3, h4⟩ := h
  obtain ⟨k1, k2, k3, k4⟩ := h'
  refine arr_ext (by rw [h1, k1]) (by rw [h3, k3]) h2 k2 (fun idx hidx => ?_)
  rw [h4 idx hidx, k4 idx (by rw [k1, ← h1]; exact hidx)]

end
end Verif
