/-
Composition of operators acting on lanes.
-/
import Verif.Proof.Axis
import Verif.Spec.Space
import Mathlib.Algebra.BigOperators.Group.Finset.Basic
import Mathlib.Algebra.BigOperators.Ring.Finset
import Mathlib.Algebra.Module.BigOperators

namespace Verif
open Res Spec Finset

section
variable {S T U : Type} [Zero S] [Zero T] [Zero U]

@[simp] theorem laneAt_length (a : Arr S) (ax : ℕ) (idx : List ℕ) :
    (laneAt a ax idx).length = a.shape.getD ax 0 := by simp [laneAt]

theorem nth_laneAt (a : Arr S) (ax : ℕ) (idx : List ℕ) {k : ℕ} (hk : k < a.shape.getD ax 0) :
    nth (laneAt a ax idx) k = at_ a (idx.set ax k) := nth_map_range _ _ _ hk

@[simp] theorem laneAt_set (a : Arr S) (ax : ℕ) (idx : List ℕ) (k : ℕ) :
    laneAt a ax (idx.set ax k) = laneAt a ax idx := by
  simp [laneAt, List.set_set]

theorem Spec.MapsLanes.shape {g : List S → List T} {m ax : ℕ} {a : Arr S} {r : Arr T}
    (h : MapsLanes g m a ax r) : r.shape = a.shape.set ax m := h.1
theorem Spec.MapsLanes.wf {g : List S → List T} {m ax : ℕ} {a : Arr S} {r : Arr T}
    (h : MapsLanes g m a ax r) : r.WF := h.2.1
theorem Spec.MapsLanes.std {g : List S → List T} {m ax : ℕ} {a : Arr S} {r : Arr T}
    (h : MapsLanes g m a ax r) : r.std = true := h.2.2.1

/-- The lanes of the result. -/
theorem laneAt_maps {g : List S → List T} {m ax : ℕ} {a : Arr S} {r : Arr T}
    (h : MapsLanes g m a ax r) (hax : ax < a.shape.length) {idx : List ℕ} {m' : ℕ}
    (hidx : InBounds (a.shape.set ax m') idx) (hg : (g (laneAt a ax idx)).length = m) :
    laneAt r ax idx = g (laneAt a ax idx) := by
  obtain ⟨h1, h2, h3, h4⟩ := h
  have hm : r.shape.getD ax 0 = m := by rw [h1, getD_set_self _ _ hax]
  have hl := hidx.length
  rw [List.length_set] at hl
  refine ext_nth (by rw [laneAt_length, hm, hg]) (fun k hk => ?_)
  have hk' : k < m := by rwa [laneAt_length, hm] at hk
  have hb := hidx.set ax hk'
  rw [List.set_set] at hb
  rw [nth_laneAt _ _ _ (by omega), h4 _ (by rw [h1]; exact hb), laneAt_set,
    getD_set_self _ _ (by omega)]

theorem lanewise_of_maps {f : List S → List T → Res (List T)} {l1 l2 ax : ℕ} {g : List S → List T}
    (hf : Computes f l1 l2 g) {a : Arr S} {r : Arr T} (hax : ax < a.shape.length)
    (hn : a.shape.getD ax 0 = l1) (h : MapsLanes g l2 a ax r) : Lanewise f l2 a ax r := by
  refine ⟨h.1, h.2.1, h.2.2.1, fun idx hidx out ho => ?_⟩
  have hc := hf (laneAt a ax idx) out (by simpa using hn) ho
  rw [laneAt_maps h hax (by rw [← h.1]; exact hidx) hc.2]
  exact hc.1

/-- an operator acting as the identity on the lanes of `a` leaves `a` alone -/
theorem maps_id {g : List S → List S} {ax : ℕ} {a r : Arr S}
    (h : MapsLanes g (a.shape.getD ax 0) a ax r) (hw : a.WF) (hs : a.std = true)
    (hax : ax < a.shape.length)
    (hid : ∀ idx, InBounds a.shape idx → g (laneAt a ax idx) = laneAt a ax idx) : r = a := by
  obtain ⟨h1, h2, h3, h4⟩ := h
  have hsh : r.shape = a.shape := by rw [h1, set_getD_self]
  refine arr_ext hsh (by rw [h3, hs]) h2 hw (fun idx hidx => ?_)
  rw [hsh] at hidx
  rw [h4 idx (by rw [hsh]; exact hidx), hid idx hidx, nth_laneAt _ _ _ (hidx.get hax),
    set_getD_self]

/-- two operators along the same axis compose -/
theorem maps_comp {g : List S → List T} {g' : List T → List U} {n m m' ax : ℕ} {a : Arr S}
    {u : Arr T} {r : Arr U} (h : MapsLanes g m a ax u) (h' : MapsLanes g' m' u ax r)
    (hax : ax < a.shape.length) (hn : a.shape.getD ax 0 = n)
    (hg : ∀ x, x.length = n → (g x).length = m) :
    MapsLanes (g' ∘ g) m' a ax r := by
  obtain ⟨k1, k2, k3, k4⟩ := h'
  have hsh : r.shape = a.shape.set ax m' := by rw [k1, h.1, List.set_set]
  refine ⟨hsh, k2, k3, fun idx hidx => ?_⟩
  rw [k4 idx hidx, laneAt_maps h hax (by rw [← hsh]; exact hidx) (hg _ (by simpa using hn))]
  rfl

/-- round trip along one axis -/
theorem maps_roundtrip {g : List S → List T} {g' : List T → List S} {n m ax : ℕ} {a r : Arr S}
    {u : Arr T} (h : MapsLanes g m a ax u) (h' : MapsLanes g' n u ax r) (hw : a.WF)
    (hs : a.std = true) (hax : ax < a.shape.length) (hn : a.shape.getD ax 0 = n)
    (hg : ∀ x, x.length = n → (g x).length = m)
    (hid : ∀ idx, InBounds a.shape idx → g' (g (laneAt a ax idx)) = laneAt a ax idx) : r = a := by
  have hc := maps_comp h h' hax hn hg
  rw [← hn] at hc
  exact maps_id hc hw hs hax hid

/-- functionals of the lanes -/
theorem maps_functional {S T R : Type} [Zero S] [Zero T] [AddCommMonoid R] {g : List S → List T}
    {n m ax : ℕ} {a : Arr S} {r : Arr T} (h : MapsLanes g m a ax r) (hax : ax < a.shape.length)
    (hn : a.shape.getD ax 0 = n) (hg : ∀ x, x.length = n → (g x).length = m)
    (φ : ℕ → T → R) (ψ : ℕ → S → R)
    (hlaw : ∀ x, x.length = n → ∑ i ∈ range m, φ i (nth (g x) i) = ∑ i ∈ range n, ψ i (nth x i))
    {idx : List ℕ} {m' : ℕ} (hidx : InBounds (a.shape.set ax m') idx) :
    ∑ i ∈ range m, φ i (at_ r (idx.set ax i)) = ∑ i ∈ range n, ψ i (at_ a (idx.set ax i)) := by
  have hl : (laneAt a ax idx).length = n := by simpa using hn
  have e := laneAt_maps h hax hidx (hg _ hl)
  have hm : r.shape.getD ax 0 = m := by rw [h.1, getD_set_self _ _ hax]
  have hlaw' := hlaw _ hl
  rw [← e] at hlaw'
  refine Eq.trans (Finset.sum_congr rfl (fun i hi => ?_)) (hlaw'.trans (Finset.sum_congr rfl
    (fun i hi => ?_)))
  · rw [nth_laneAt _ _ _ (by rw [hm]; exact Finset.mem_range.mp hi)]
  · rw [nth_laneAt _ _ _ (by rw [hn]; exact Finset.mem_range.mp hi)]

/-! ### the operators with and without allocation -/

theorem zeros_wf (sh : List ℕ) : (Arr.zeros sh : Arr T).WF := by simp [Arr.zeros, Arr.WF]

theorem resized_ok {a : Arr S} {ax : ℕ} (hax : ax < a.shape.length) (size : ℕ) :
    arrayResizedAxis T a size ax = ok (Arr.zeros (a.shape.set ax size)) := by
  unfold arrayResizedAxis wrC
  rw [if_pos hax]; rfl

theorem serial_ok {f : List S → List T → Res (List T)} {l1 l2 : ℕ} {g : List S → List T}
    (hf : Computes f l1 l2 g) {a : Arr S} {out : Arr T} {ax : ℕ} (hs : a.std = true)
    (hs' : out.std = true) (hw' : out.WF) (hax : ax < a.shape.length)
    (hn : a.shape.getD ax 0 = l1) (hsh : out.shape = a.shape.set ax l2) :
    ∃ r, applyAlongAxis (serialOrder out ax) f l1 l2 a out ax = ok r ∧ MapsLanes g l2 a ax r :=
  applyAlongAxis_ok hf hs hs' hw' hax hn hsh _ (List.Perm.refl _)

theorem serial_alloc_ok {f : List S → List T → Res (List T)} {l1 l2 : ℕ} {g : List S → List T}
    (hf : Computes f l1 l2 g) {a : Arr S} {ax : ℕ} (hs : a.std = true)
    (hax : ax < a.shape.length) (hn : a.shape.getD ax 0 = l1) :
    ∃ r, (do let out ← arrayResizedAxis T a l2 ax
             applyAlongAxis (serialOrder out ax) f l1 l2 a out ax) = ok r ∧
      MapsLanes g l2 a ax r := by
  rw [resized_ok hax, bind_ok]
  exact serial_ok hf hs rfl (zeros_wf _) hax hn rfl

theorem par_alloc_ok {f : List S → List T → Res (List T)} {l1 l2 : ℕ} {g : List S → List T}
    (hf : Computes f l1 l2 g) {a : Arr S} {ax : ℕ} (hs : a.std = true)
    (hax : ax < a.shape.length) (hn : a.shape.getD ax 0 = l1) (sched : List ℕ)
    (hsch : FairSchedule (a.shape.set ax l2) ax sched) :
    ∃ r, (do let out ← arrayResizedAxis T a l2 ax
             parApplyAlongAxis sched f l1 l2 a out ax) = ok r ∧
      MapsLanes g l2 a ax r := by
  rw [resized_ok hax, bind_ok]
  exact parApplyAlongAxis_ok hf hs rfl (zeros_wf _) hax hn rfl sched hsch

theorem assertR_bind {α : Type} (c : Prop) [Decidable c] (k : Unit → Res α) :
    (assertR c >>= k) = if c then k () else err .panic := by
  unfold assertR; split <;> rfl

/-- The checks either succeed, and then everything fits, or panic. -/
theorem axisChecks_cases (l1 l2 : ℕ) (a : Arr S) (out : Arr T) (ax : ℕ) :
    (axisChecks l1 l2 a out ax = err .panic) ∨
    (axisChecks l1 l2 a out ax = ok () ∧ a.std = true ∧ out.std = true ∧ ax < a.shape.length ∧
      a.shape.getD ax 0 = l1 ∧ out.shape = a.shape.set ax l2) := by
  by_cases h : a.std = true ∧ out.std = true ∧ ax < a.shape.length ∧ ax < out.shape.length ∧
      a.shape.getD ax 0 = l1 ∧ out.shape.getD ax 0 = l2 ∧
      a.shape.eraseIdx ax = out.shape.eraseIdx ax
  · obtain ⟨h1, h2, h3, h4, h5, h6, h7⟩ := h
    have hsh : out.shape = a.shape.set ax l2 := by
      have hlen : out.shape.length = a.shape.length := by
        have := congrArg List.length h7
        rw [List.length_eraseIdx, List.length_eraseIdx, if_pos h3, if_pos h4] at this
        omega
      refine List.ext_getElem (by simpa using hlen) (fun i hi hi' => ?_)
      rw [List.getElem_set]
      by_cases e : ax = i
      · subst e; rw [if_pos rfl, ← h6, getD_lt h4]
      · rw [if_neg e]
        rcases Nat.lt_or_gt_of_ne e with hlt | hgt
        · have e1 : (a.shape.eraseIdx ax)[i - 1]? = (out.shape.eraseIdx ax)[i - 1]? := by rw [h7]
          rw [List.getElem?_eraseIdx, List.getElem?_eraseIdx, if_neg (by omega), if_neg (by omega),
            show i - 1 + 1 = i by omega] at e1
          rw [List.getElem?_eq_getElem hi, List.getElem?_eq_getElem (by omega)] at e1
          simpa using e1.symm
        · have e1 : (a.shape.eraseIdx ax)[i]? = (out.shape.eraseIdx ax)[i]? := by rw [h7]
          rw [List.getElem?_eraseIdx, List.getElem?_eraseIdx, if_pos hgt, if_pos hgt] at e1
          rw [List.getElem?_eq_getElem hi, List.getElem?_eq_getElem (by omega)] at e1
          simpa using e1.symm
    exact Or.inr ⟨axisChecks_ok h1 h2 h3 h5 hsh, h1, h2, h3, h5, hsh⟩
  · left
    unfold axisChecks checkArrayAxis
    simp only [assertR_bind]
    split <;> [skip; rfl]
    split <;> [skip; rfl]
    rename_i h1 h2
    unfold shapeAt rdC
    by_cases h3 : ax < a.shape.length
    swap
    · rw [List.getElem?_eq_none (by omega)]; rfl
    by_cases h4 : ax < out.shape.length
    swap
    · rw [List.getElem?_eq_getElem h3, List.getElem?_eq_none (by omega)]
      simp only [bind_ok, bind_err]
      unfold assertR
      split <;> rfl
    rw [List.getElem?_eq_getElem h3, List.getElem?_eq_getElem h4]
    simp only [bind_ok]
    rw [← getD_lt h3, ← getD_lt h4]
    by_cases h5 : a.shape.getD ax 0 = l1
    swap
    · unfold assertR; rw [if_neg h5]; rfl
    by_cases h6 : out.shape.getD ax 0 = l2
    swap
    · unfold assertR; rw [if_pos h5, if_neg h6]; rfl
    have h7 : a.shape.eraseIdx ax ≠ out.shape.eraseIdx ax := fun h7 =>
      h ⟨h1, h2, h3, h4, h5, h6, h7⟩
    have h8 : (a.shape.length -! 1) = ok (a.shape.length - 1) := by
      unfold usub; rw [if_pos (by omega)]
    rw [h8]
    unfold assertR
    rw [if_pos h5, if_pos h6, if_neg h7]; rfl

theorem serial_panics {l1 l2 : ℕ} {a : Arr S} {out : Arr T} {ax : ℕ}
    (h : axisChecks l1 l2 a out ax = err .panic) (order : List ℕ)
    (f : List S → List T → Res (List T)) : applyAlongAxis order f l1 l2 a out ax = err .panic := by
  unfold applyAlongAxis; rw [h]; rfl

theorem par_panics {l1 l2 : ℕ} {a : Arr S} {out : Arr T} {ax : ℕ}
    (h : axisChecks l1 l2 a out ax = err .panic) (sched : List ℕ)
    (f : List S → List T → Res (List T)) :
    parApplyAlongAxis sched f l1 l2 a out ax = err .panic := by
  unfold parApplyAlongAxis; rw [h]; rfl

/-- Whatever the arrays, a parallel run along a schedule that completes equals a serial run in any
order that visits every lane. -/
theorem par_eq_serial {f : List S → List T → Res (List T)} {l1 l2 : ℕ} {g : List S → List T}
    (hf : Computes f l1 l2 g) (a : Arr S) (out : Arr T) (hw : out.WF) (ax : ℕ) (order : List ℕ)
    (hord : order.Perm (List.range (laneCount out.shape ax))) (sched : List ℕ)
    (hsch : FairSchedule out.shape ax sched) :
    parApplyAlongAxis sched f l1 l2 a out ax = applyAlongAxis order f l1 l2 a out ax := by
  rcases axisChecks_cases l1 l2 a out ax with h | ⟨-, h1, h2, h3, h4, h5⟩
  · rw [serial_panics h, par_panics h]
  · obtain ⟨r, hr, hm⟩ := parApplyAlongAxis_ok hf h1 h2 hw h3 h4 h5 sched hsch
    obtain ⟨r', hr', hm'⟩ := applyAlongAxis_ok hf h1 h2 hw h3 h4 h5 order hord
    rw [hr, hr', mapsLanes_unique hm hm']

end

/-! ### linear operators: explicit sums, commutation -/

section
variable {R T : Type} [CommRing R] [AddCommGroup T] [Module R T]

/-- the unit vector -/
def unitVec (R : Type) [CommRing R] (n j : ℕ) : List R := (List.range n).map (fun i => if i = j then 1 else 0)

theorem linear_zero {S : Type} [AddCommGroup S] [Module R S] {n : ℕ} {g : List S → List T}
    (hg : IsLinear R n g) {x : List S} (hx : x.length = n) {k : ℕ} (hk : k < (g x).length)
    (hl : ∀ y : List S, y.length = n → (g y).length = (g x).length) :
    nth (g (List.replicate n 0)) k = 0 := by
  have h := hg 0 0 x x hx hx
  have e : linComb R 0 0 x x = List.replicate n 0 := by
    refine ext_nth (by simp [linComb, hx]) (fun i hi => ?_)
    have hi' : i < x.length := by simpa [linComb] using hi
    rw [linComb, nth_map_range _ _ _ hi', nth_replicate]
    simp
  rw [e] at h
  rw [h, linComb, nth_map_range _ _ _ hk]
  simp

/-- A linear slice function is given by its values on unit vectors. -/
theorem linear_sum {n m : ℕ} {g : List R → List T} (hg : IsLinear R n g)
    (hl : ∀ y, y.length = n → (g y).length = m) (x : List R) (hx : x.length = n) {k : ℕ}
    (hk : k < m) :
    nth (g x) k = ∑ j ∈ range n, nth x j • nth (g (unitVec R n j)) k := by
  -- truncate after c entries
  have key : ∀ c ≤ n, nth (g ((List.range n).map (fun i => if i < c then nth x i else 0))) k
      = ∑ j ∈ range c, nth x j • nth (g (unitVec R n j)) k := by
    intro c hc
    induction c with
    | zero =>
      have : (List.range n).map (fun i => if i < 0 then nth x i else 0) = List.replicate n 0 := by
        simp [List.map_const']
      rw [this, linear_zero hg hx (by rw [hl x hx]; exact hk) (fun y hy => by rw [hl y hy, hl x hx])]
      simp
    | succ c ih =>
      have e : (List.range n).map (fun i => if i < c + 1 then nth x i else 0)
          = linComb R 1 (nth x c) ((List.range n).map (fun i => if i < c then nth x i else 0))
            (unitVec R n c) := by
        refine ext_nth (by simp [linComb]) (fun i hi => ?_)
        have hi' : i < n := by simpa using hi
        rw [linComb, nth_map_range _ _ _ hi', nth_map_range _ _ _ (by simpa using hi'),
          nth_map_range _ _ _ hi', unitVec, nth_map_range _ _ _ hi']
        by_cases h1 : i = c
        · subst h1; simp
        · by_cases h2 : i < c
          · simp [h1, h2, show i < c + 1 by omega]
          · simp [h1, h2, show ¬ i < c + 1 by omega]
      have hu : (unitVec R n c).length = n := by simp [unitVec]
      rw [e, hg _ _ _ _ (by simp) hu, linComb, nth_map_range _ _ _ (by rw [hl _ (by simp)]; exact hk),
        ih (by omega), Finset.sum_range_succ]
      simp
  have := key n le_rfl
  have e : (List.range n).map (fun i => if i < n then nth x i else 0) = x := by
    refine ext_nth (by simp [hx]) (fun i hi => ?_)
    have hi' : i < n := by simpa using hi
    rw [nth_map_range _ _ _ hi', if_pos hi']
  rwa [e] at this

/-- elements of the result of a linear operator -/
theorem maps_linear {n m ax : ℕ} {g : List R → List T} (hg : IsLinear R n g)
    (hl : ∀ y, y.length = n → (g y).length = m) {a : Arr R} {r : Arr T}
    (h : MapsLanes g m a ax r) (hax : ax < a.shape.length) (hn : a.shape.getD ax 0 = n)
    {idx : List ℕ} (hidx : InBounds r.shape idx) :
    at_ r idx = ∑ j ∈ range n, at_ a (idx.set ax j) • nth (g (unitVec R n j)) (idx.getD ax 0) := by
  have hk : idx.getD ax 0 < m := by
    have := hidx.get (ax := ax) (by rw [h.1]; simpa using hax)
    rwa [h.1, getD_set_self _ _ hax] at this
  rw [h.2.2.2 idx hidx, linear_sum hg hl _ (by simpa using hn) hk]
  refine Finset.sum_congr rfl (fun j hj => ?_)
  rw [nth_laneAt _ _ _ (by rw [hn]; exact Finset.mem_range.mp hj)]

theorem getD_set_ne (l : List ℕ) {i j : ℕ} (h : i ≠ j) (x : ℕ) : (l.set i x).getD j 0 = l.getD j 0 := by
  simp [List.getD_eq_getElem?_getD, List.getElem?_set, h]

/-- linear operators along different axes commute -/
theorem maps_comm {n m n' m' ax ax' : ℕ} (hne : ax ≠ ax') {g h : List R → List R}
    (hg : IsLinear R n g) (hgl : ∀ y, y.length = n → (g y).length = m)
    (hh : IsLinear R n' h) (hhl : ∀ y, y.length = n' → (h y).length = m')
    {a u u' r r' : Arr R} (h1 : MapsLanes g m a ax u) (h2 : MapsLanes h m' u ax' r)
    (k1 : MapsLanes h m' a ax' u') (k2 : MapsLanes g m u' ax r')
    (hax : ax < a.shape.length) (hax' : ax' < a.shape.length) (hn : a.shape.getD ax 0 = n)
    (hn' : a.shape.getD ax' 0 = n') : r = r' := by
  have hus : u.shape = a.shape.set ax m := h1.1
  have hus' : u'.shape = a.shape.set ax' m' := k1.1
  have hrs : r.shape = (a.shape.set ax m).set ax' m' := by rw [h2.1, hus]
  have hrs' : r'.shape = (a.shape.set ax m).set ax' m' := by
    rw [k2.1, hus', List.set_comm _ _ hne]
  have hun' : u.shape.getD ax' 0 = n' := by rw [hus, getD_set_ne _ hne, hn']
  have hun : u'.shape.getD ax 0 = n := by rw [hus', getD_set_ne _ hne.symm, hn]
  refine arr_ext (by rw [hrs, hrs']) (by rw [h2.std, k2.std]) h2.wf k2.wf (fun idx hidx => ?_)
  have hidx0 := hidx
  rw [hrs] at hidx0
  rw [maps_linear hh hhl h2 (by rw [hus]; simpa) hun' hidx,
    maps_linear hg hgl k2 (by rw [hus']; simpa) hun (by rw [hrs', ← hrs]; exact hidx)]
  have e1 : ∀ j < n', at_ u (idx.set ax' j) = ∑ i ∈ range n, at_ a ((idx.set ax' j).set ax i) •
      nth (g (unitVec R n i)) (idx.getD ax 0) := fun j hj => by
    have hb : InBounds u.shape (idx.set ax' j) := by
      have := hidx0.set ax' hj
      rw [List.set_set] at this
      have e : (a.shape.set ax m).set ax' n' = a.shape.set ax m := by
        rw [← hn', ← getD_set_ne a.shape hne m, set_getD_self]
      rw [e] at this
      rw [hus]; exact this
    rw [maps_linear hg hgl h1 hax hn hb, getD_set_ne _ hne.symm]
  have e2 : ∀ i < n, at_ u' (idx.set ax i) = ∑ j ∈ range n', at_ a ((idx.set ax i).set ax' j) •
      nth (h (unitVec R n' j)) (idx.getD ax' 0) := fun i hi => by
    have hb : InBounds u'.shape (idx.set ax i) := by
      have := hidx0.set ax hi
      rw [List.set_comm _ _ hne.symm, List.set_set] at this
      have e : (a.shape.set ax n).set ax' m' = a.shape.set ax' m' := by
        rw [← hn, set_getD_self]
      rw [e] at this
      rw [hus']; exact this
    rw [maps_linear hh hhl k1 hax' hn' hb, getD_set_ne _ hne]
  have s1 : ∑ j ∈ range n', at_ u (idx.set ax' j) • nth (h (unitVec R n' j)) (idx.getD ax' 0)
      = ∑ j ∈ range n', (∑ i ∈ range n, at_ a ((idx.set ax' j).set ax i) •
      nth (g (unitVec R n i)) (idx.getD ax 0)) • nth (h (unitVec R n' j)) (idx.getD ax' 0) :=
    Finset.sum_congr rfl (fun j hj => by rw [e1 j (Finset.mem_range.mp hj)])
  have s2 : ∑ i ∈ range n, at_ u' (idx.set ax i) • nth (g (unitVec R n i)) (idx.getD ax 0)
      = ∑ i ∈ range n, (∑ j ∈ range n', at_ a ((idx.set ax i).set ax' j) •
      nth (h (unitVec R n' j)) (idx.getD ax' 0)) • nth (g (unitVec R n i)) (idx.getD ax 0) :=
    Finset.sum_congr rfl (fun i hi => by rw [e2 i (Finset.mem_range.mp hi)])
  rw [s1, s2]
  simp only [Finset.sum_smul]
  rw [Finset.sum_comm]
  refine Finset.sum_congr rfl (fun i _ => Finset.sum_congr rfl (fun j _ => ?_))
  rw [List.set_comm _ _ hne]
  simp only [smul_eq_mul]; ring

end

/-! ### the lane map as a function -/

/-- multi-index of a row-major position -/
def unflat : List ℕ → ℕ → List ℕ
  | [], _ => []
  | _ :: sh, p => p / sh.prod :: unflat sh (p % sh.prod)

theorem unflat_flat : ∀ {sh idx : List ℕ}, InBounds sh idx → unflat sh (flat sh idx) = idx
  | [], [], _ => rfl
  | n :: sh, i :: idx, h => by
    rw [InBounds, List.forall₂_cons] at h
    have hlt := flat_lt (sh := sh) h.2
    have hp : 0 < sh.prod := by omega
    simp only [flat, unflat]
    rw [Nat.add_comm, Nat.add_mul_div_right _ _ hp, Nat.div_eq_of_lt hlt, Nat.add_mul_mod_self_right,
      Nat.mod_eq_of_lt hlt, unflat_flat h.2, Nat.zero_add]
  | [], _ :: _, h => by cases h
  | _ :: _, [], h => by cases h

section
variable {S T U : Type} [Zero S] [Zero T] [Zero U]

/-- apply `g` to every lane along `ax` -/
def mapAx (g : List S → List T) (m ax : ℕ) (a : Arr S) : Arr T :=
  ⟨a.shape.set ax m, (List.range (a.shape.set ax m).prod).map (fun p =>
    nth (g (laneAt a ax (unflat (a.shape.set ax m) p))) ((unflat (a.shape.set ax m) p).getD ax 0)),
    true⟩

theorem mapAx_spec (g : List S → List T) (m ax : ℕ) (a : Arr S) :
    MapsLanes g m a ax (mapAx g m ax a) := by
  refine ⟨rfl, by simp [Arr.WF, mapAx], rfl, fun idx hidx => ?_⟩
  unfold at_
  change InBounds (a.shape.set ax m) idx at hidx
  have := flat_lt hidx
  unfold mapAx
  dsimp only
  rw [nth_map_range _ _ _ this, unflat_flat hidx]

@[simp] theorem mapAx_shape (g : List S → List T) (m ax : ℕ) (a : Arr S) :
    (mapAx g m ax a).shape = a.shape.set ax m := rfl
@[simp] theorem mapAx_std (g : List S → List T) (m ax : ℕ) (a : Arr S) :
    (mapAx g m ax a).std = true := rfl
theorem mapAx_wf (g : List S → List T) (m ax : ℕ) (a : Arr S) : (mapAx g m ax a).WF :=
  (mapAx_spec g m ax a).wf

theorem mapsLanes_iff {g : List S → List T} {m ax : ℕ} {a : Arr S} {r : Arr T} :
    MapsLanes g m a ax r ↔ r = mapAx g m ax a :=
  ⟨fun h => mapsLanes_unique h (mapAx_spec ..), fun h => h ▸ mapAx_spec ..⟩

theorem mapAx_roundtrip {g : List S → List T} {g' : List T → List S} {n m ax : ℕ} {a : Arr S}
    (hw : a.WF) (hs : a.std = true) (hax : ax < a.shape.length) (hn : a.shape.getD ax 0 = n)
    (hg : ∀ x, x.length = n → (g x).length = m)
    (hid : ∀ idx, InBounds a.shape idx → g' (g (laneAt a ax idx)) = laneAt a ax idx) :
    mapAx g' n ax (mapAx g m ax a) = a :=
  maps_roundtrip (mapAx_spec ..) (mapAx_spec ..) hw hs hax hn hg hid

theorem mapAx_roundtrip' {g : List S → List T} {g' : List T → List S} {n m ax : ℕ} {a : Arr S}
    (hw : a.WF) (hs : a.std = true) (hax : ax < a.shape.length) (hn : a.shape.getD ax 0 = n)
    (hg : ∀ x, x.length = n → (g x).length = m)
    (hid : ∀ x, x.length = n → g' (g x) = x) :
    mapAx g' n ax (mapAx g m ax a) = a :=
  mapAx_roundtrip hw hs hax hn hg (fun idx _ => hid _ (by simpa using hn))

theorem serial_eq {f : List S → List T → Res (List T)} {l1 l2 : ℕ} {g : List S → List T}
    (hf : Computes f l1 l2 g) {a : Arr S} {out : Arr T} {ax : ℕ} (hs : a.std = true)
    (hs' : out.std = true) (hw' : out.WF) (hax : ax < a.shape.length)
    (hn : a.shape.getD ax 0 = l1) (hsh : out.shape = a.shape.set ax l2) :
    applyAlongAxis (serialOrder out ax) f l1 l2 a out ax = ok (mapAx g l2 ax a) := by
  obtain ⟨r, h1, h2⟩ := serial_ok hf hs hs' hw' hax hn hsh
  rw [h1, mapsLanes_iff.mp h2]

theorem serial_alloc_eq {f : List S → List T → Res (List T)} {l1 l2 : ℕ} {g : List S → List T}
    (hf : Computes f l1 l2 g) {a : Arr S} {ax : ℕ} (hs : a.std = true)
    (hax : ax < a.shape.length) (hn : a.shape.getD ax 0 = l1) :
    (do let out ← arrayResizedAxis T a l2 ax
        applyAlongAxis (serialOrder out ax) f l1 l2 a out ax) = ok (mapAx g l2 ax a) := by
  obtain ⟨r, h1, h2⟩ := serial_alloc_ok hf hs hax hn
  rw [h1, mapsLanes_iff.mp h2]

/-- parallel equals serial, with allocation -/
theorem par_alloc_eq_serial {f : List S → List T → Res (List T)} {l1 l2 : ℕ} {g : List S → List T}
    (hf : Computes f l1 l2 g) (a : Arr S) (ax : ℕ) (sched : List ℕ)
    (hsch : FairSchedule (a.shape.set ax l2) ax sched) :
    (do let out ← arrayResizedAxis T a l2 ax
        parApplyAlongAxis sched f l1 l2 a out ax)
    = (do let out ← arrayResizedAxis T a l2 ax
          applyAlongAxis (serialOrder out ax) f l1 l2 a out ax) := by
  by_cases hax : ax < a.shape.length
  · rw [resized_ok hax, bind_ok, bind_ok]
    exact par_eq_serial hf a _ (zeros_wf _) ax _ (List.Perm.refl _) sched hsch
  · unfold arrayResizedAxis wrC
    rw [if_neg hax]; rfl

end

section
variable {R : Type} [CommRing R]

theorem mapAx_comm {n m n' m' ax ax' : ℕ} (hne : ax ≠ ax') {g h : List R → List R}
    (hg : IsLinear R n g) (hgl : ∀ y, y.length = n → (g y).length = m)
    (hh : IsLinear R n' h) (hhl : ∀ y, y.length = n' → (h y).length = m') {a : Arr R}
    (hax : ax < a.shape.length) (hax' : ax' < a.shape.length) (hn : a.shape.getD ax 0 = n)
    (hn' : a.shape.getD ax' 0 = n') :
    mapAx h m' ax' (mapAx g m ax a) = mapAx g m ax (mapAx h m' ax' a) :=
  maps_comm hne hg hgl hh hhl (mapAx_spec ..) (mapAx_spec ..) (mapAx_spec ..) (mapAx_spec ..)
    hax hax' hn hn'

end

end Verif
