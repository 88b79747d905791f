/- Closed form of `Distribution::new` and of the communication counts. -/
import Verif.Proof.Distribute
import Verif.Proof.SpaceGrad

namespace Verif
open Res

theorem rdC_map_range {T : Type} (f : ℕ → T) {P i : ℕ} (h : i < P) :
    rdC ((List.range P).map f) i = ok (f i) := by
  unfold rdC; simp [h]

theorem rdC_of_get {T : Type} {l : List T} {i : ℕ} {x : T} (h : l[i]? = some x) :
    rdC l i = ok x := by unfold rdC; rw [h]

theorem rdC_panic {T : Type} {l : List T} {i : ℕ} (h : l.length ≤ i) :
    rdC l i = err .panic := by unfold rdC; rw [List.getElem?_eq_none h]

theorem wrC_ok {T : Type} {l : List T} {i : ℕ} {x : T} (h : i < l.length) :
    wrC l i x = ok (l.set i x) := by unfold wrC; rw [if_pos h]

theorem assertR_ok {c : Prop} [Decidable c] (h : c) : assertR c = ok () := by
  unfold assertR; rw [if_pos h]

theorem assertR_panic {c : Prop} [Decidable c] (h : ¬ c) : assertR c = err .panic := by
  unfold assertR; rw [if_neg h]

theorem mapR_ok {S T : Type} {f : S → Res T} {g : S → T} (l : List S) (h : ∀ x ∈ l, f x = ok (g x)) :
    mapR f l = ok (l.map g) := by
  induction l with
  | nil => rfl
  | cons x l ih =>
    unfold mapR
    rw [h x (by simp), bind_ok, ih (fun y hy => h y (by simp [hy])), bind_ok]
    rfl

theorem setAxis_map {ι : Type} (ax : ℕ) (f : ι → List ℕ) (g : ι → ℕ) (is : List ι)
    (h : ∀ i ∈ is, ax < (f i).length) :
    setAxis ax (is.map f) (is.map g) = ok (is.map (fun i => (f i).set ax (g i))) := by
  induction is with
  | nil => rfl
  | cons i is ih =>
    change (wrC (f i) ax (g i) >>= _) = _
    rw [wrC_ok (h i (by simp)), bind_ok, ih (fun j hj => h j (by simp [hj])), bind_ok]
    rfl

/-- the distribution of `Distribution::new` -/
def distOf (n : List ℕ) (P r c : ℕ) : Dist :=
  let st := fun r => (List.range n.length).map (fun ax => if ax = c then 0 else off (n.getD ax 0) P r)
  let sz := fun r => (List.range n.length).map
    (fun ax => if ax = c then n.getD ax 0 else cnt (n.getD ax 0) P r)
  let en := fun r => (List.range n.length).map
    (fun ax => if ax = c then n.getD ax 0 - 1 else off (n.getD ax 0) P (r + 1) - 1)
  ⟨sz r, st r, en r, (List.range P).map sz, (List.range P).map st, (List.range P).map en, P, r, c⟩

theorem set_map_range (N ax : ℕ) (f : ℕ → ℕ) (x : ℕ) (h : ax < N) :
    ((List.range N).map f).set ax x = (List.range N).map (fun i => if i = ax then x else f i) := by
  apply ext_nth (by simp)
  intro i hi
  rw [List.length_set, List.length_map, List.length_range] at hi
  rw [nth_map_range _ _ _ hi]
  by_cases hia : i = ax
  · subst hia; rw [nth_set_self _ _ _ (by simpa using hi), if_pos rfl]
  · rw [nth_set_ne _ _ _ _ (by omega), nth_map_range _ _ _ hi, if_neg hia]

theorem list_eq_map_range (n : List ℕ) : n = (List.range n.length).map (fun i => n.getD i 0) := by
  apply ext_nth (by simp)
  intro i hi
  rw [nth_map_range _ _ _ hi]; rfl

theorem Dist.new_ok (o : Mode) {n : List ℕ} {P r c : ℕ} (hr : r < P) (hc : c ≤ 1)
    (hn : ∀ i < n.length, i ≠ c → P ≤ n.getD i 0) (h1 : ∀ i < n.length, 1 ≤ n.getD i 0)
    (hw : ∀ i < n.length, n.getD i 0 + 1 < usizeW) :
    Dist.new o n P r c = ok (distOf n P r c) := by
  unfold Dist.new
  rw [assertR_ok hc, bind_ok]
  have hrep : List.replicate P n = (List.range P).map (fun _ => n) := by simp [List.map_const']
  have hrep' : List.replicate P (List.replicate n.length 0)
      = (List.range P).map (fun _ => (List.range n.length).map (fun _ => 0)) := by
    simp [List.map_const']
  have hen : mapR (fun a => mapR (fun e => o.sub e 1) a) (List.replicate P n)
      = ok ((List.range P).map (fun _ => (List.range n.length).map (fun i => n.getD i 0 - 1))) := by
    have e1 : mapR (fun e => o.sub e 1) n = ok (n.map (· - 1)) := by
      apply mapR_ok
      intro x hx
      obtain ⟨i, hi, rfl⟩ := List.getElem_of_mem hx
      have := h1 i hi
      rw [List.getD_eq_getElem?_getD, List.getElem?_eq_getElem hi] at this
      exact o.sub_ok this
    rw [mapR_ok (g := fun _ => n.map (· - 1))]
    · simp only [List.map_const', List.length_replicate, List.length_range]
      congr 2
      conv_lhs => rw [list_eq_map_range n]
      simp
    · intro x hx
      rw [List.eq_of_mem_replicate hx]; exact e1
  rw [hen, bind_ok, hrep, hrep']
  let A : ℕ → List (List ℕ) × List (List ℕ) × List (List ℕ) := fun k =>
    ((List.range P).map (fun r => (List.range n.length).map (fun ax =>
        if ax < k ∧ ax ≠ c then off (n.getD ax 0) P r else 0)),
     (List.range P).map (fun r => (List.range n.length).map (fun ax =>
        if ax < k ∧ ax ≠ c then off (n.getD ax 0) P (r + 1) - 1 else n.getD ax 0 - 1)),
     (List.range P).map (fun r => (List.range n.length).map (fun ax =>
        if ax < k ∧ ax ≠ c then cnt (n.getD ax 0) P r else n.getD ax 0)))
  have hA0 : ((List.range P).map (fun _ => (List.range n.length).map (fun _ => 0)),
      (List.range P).map (fun _ => (List.range n.length).map (fun i => n.getD i 0 - 1)),
      (List.range P).map (fun _ => n)) = A 0 := by
    refine Prod.ext ?_ (Prod.ext ?_ ?_)
    · simp [A]
    · simp [A]
    · change (List.range P).map (fun _ => n) = _
      conv_lhs => rw [list_eq_map_range n]
      simp [A]
  have hloop : wp (fun _ => False) (forRange 0 n.length (fun axis s =>
      (if axis = c then pure s else do
        let n ← rdC n axis
        let (stSplit, enSplit, szSplit) ← distribute o n P
        let stProcs ← setAxis axis s.1 stSplit
        let enProcs ← setAxis axis s.2.1 enSplit
        let szProcs ← setAxis axis s.2.2 szSplit
        pure (stProcs, enProcs, szProcs))) (A 0)) (fun s => s = A n.length) := by
    refine wp_forRange (I := fun k s => s = A k) rfl ?_ ?_
    swap
    · intro s hs; rw [hs]; simp
    rintro k s - hk rfl
    by_cases hkc : k = c
    · rw [if_pos hkc]
      refine wp_pure_i ?_
      have : ∀ ax, (ax < k ∧ ax ≠ c) ↔ (ax < k + 1 ∧ ax ≠ c) := by omega
      simp only [A, this]
    · rw [if_neg hkc, rdC_of_get (x := n.getD k 0)
        (by rw [List.getD_eq_getElem?_getD, List.getElem?_eq_getElem hk]; rfl), bind_ok,
        distribute_ok o (by omega) (hn k hk hkc) (hw k hk), bind_ok]
      change wp _ (setAxis k ((List.range P).map _) ((List.range P).map _) >>= _) _
      rw [setAxis_map _ _ _ _ (by intro i _; simpa using hk), bind_ok]
      change wp _ (setAxis k ((List.range P).map _) ((List.range P).map _) >>= _) _
      rw [setAxis_map _ _ _ _ (by intro i _; simpa using hk), bind_ok]
      change wp _ (setAxis k ((List.range P).map _) ((List.range P).map _) >>= _) _
      rw [setAxis_map _ _ _ _ (by intro i _; simpa using hk), bind_ok]
      refine wp_pure_i ?_
      refine Prod.ext ?_ (Prod.ext ?_ ?_) <;>
      · refine List.map_congr_left (fun r _ => ?_)
        rw [set_map_range _ _ _ _ hk]
        refine List.map_congr_left (fun ax _ => ?_)
        by_cases h1 : ax = k
        · subst h1; rw [if_pos rfl, if_pos ⟨by omega, hkc⟩]
        · rw [if_neg h1]
          have : (ax < k ∧ ax ≠ c) ↔ (ax < k + 1 ∧ ax ≠ c) := by omega
          simp only [this]
  rw [hA0]
  obtain ⟨s, hs, rfl⟩ := wp_total.1 hloop
  rw [hs, bind_ok]
  change (rdC ((List.range P).map _) r >>= _) = _
  rw [rdC_map_range _ hr, bind_ok]
  change (rdC ((List.range P).map _) r >>= _) = _
  rw [rdC_map_range _ hr, bind_ok]
  change (rdC ((List.range P).map _) r >>= _) = _
  rw [rdC_map_range _ hr, bind_ok]
  have key : ∀ (g h : ℕ → ℕ → ℕ), (fun r => (List.range n.length).map (fun ax =>
      if ax < n.length ∧ ax ≠ c then g r ax else h r ax))
      = (fun r => (List.range n.length).map (fun ax => if ax = c then h r ax else g r ax)) := by
    intro g h
    funext r
    refine List.map_congr_left (fun ax hax => ?_)
    have := List.mem_range.1 hax
    by_cases hc : ax = c
    · rw [if_neg (by omega), if_pos hc]
    · rw [if_pos ⟨this, hc⟩, if_neg hc]
  have k1 := key (fun r ax => off (n.getD ax 0) P r) (fun _ _ => 0)
  have k2 := key (fun r ax => off (n.getD ax 0) P (r + 1) - 1) (fun _ ax => n.getD ax 0 - 1)
  have k3 := key (fun r ax => cnt (n.getD ax 0) P r) (fun _ ax => n.getD ax 0)
  change ok (Dist.mk ((fun r => _) r) ((fun r => _) r) ((fun r => _) r) ((List.range P).map _)
    ((List.range P).map _) ((List.range P).map _) P r c) = _
  rw [k1, k2, k3]
  unfold distOf
  refine congrArg ok ?_
  congr 1
  · exact congrFun k3 r
  · exact congrFun k1 r
  · exact congrFun k2 r

end Verif
