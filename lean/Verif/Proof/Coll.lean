/- Lock step runs of the collective operations. -/
import Verif.Proof.Mpi
import Verif.Proof.Dist

namespace Verif.Mpi
open Res

variable {T : Type}

theorem recvAll_length {P : ℕ} {cs : ℕ → Coll T} (hm : Matched P cs) {r : ℕ} (hr : r < P) :
    (recvAll P cs r).length = (cs r).buf.length := store_length hm hr _ (by simp)

theorem recvAll_get {P : ℕ} {cs : ℕ → Coll T} (hm : Matched P cs) {r s : ℕ} (hr : r < P) (hs : s < P)
    {d : ℕ} {m : List T} (h1 : (cs r).slot s = some (d, m.length)) (h2 : (cs s).out r = some m)
    {e : ℕ} (he : e < m.length) : (recvAll P cs r)[d + e]? = m[e]? := by
  have := (store_get hm hr (List.range P).reverse (by simp) (d + e)).1 s (by simpa using hs) d m h1 h2
    (by omega) (by omega)
  rw [show d + e - d = e by omega] at this
  exact this

theorem recvAll_none {P : ℕ} {cs : ℕ → Coll T} (hm : Matched P cs) {r : ℕ} (hr : r < P)
    (h : ∀ s < P, (cs r).slot s = none) : recvAll P cs r = (cs r).buf := by
  apply List.ext_getElem?
  intro i
  refine (store_get hm hr (List.range P).reverse (by simp) i).2 ?_
  intro s hs d c hd
  rw [h s (by simpa using hs)] at hd
  cases hd

/-- how a rank `r` takes part in an operation: it expects data from everybody, one after the other;
or from nobody; or from rank 0 only -/
inductive Part (P : ℕ) (cs : ℕ → Coll T) (r : ℕ) : Prop
  | all (D : ℕ → ℕ) (m : ℕ → List T) (hs : ∀ s < P, (cs r).slot s = some (D s, (m s).length))
      (ho : ∀ s < P, (cs s).out r = some (m s)) (hD : ∀ s < P, D (s + 1) = D s + (m s).length)
      (hl : D P ≤ (cs r).buf.length)
  | nobody (hs : ∀ s < P, (cs r).slot s = none) (ho : ∀ s < P, (cs s).out r = none)
  | root (m : List T) (h0 : (cs r).slot 0 = some (0, m.length)) (ho0 : (cs 0).out r = some m)
      (hl : m.length ≤ (cs r).buf.length) (hs : ∀ s < P, s ≠ 0 → (cs r).slot s = none)
      (ho : ∀ s < P, s ≠ 0 → (cs s).out r = none)

theorem matched_of_part {P : ℕ} {cs : ℕ → Coll T}
    (hk : ∀ r < P, ∀ s < P, (cs r).kind = (cs s).kind) (h : ∀ r < P, Part P cs r) : Matched P cs := by
  have mono : ∀ {D : ℕ → ℕ} {m : ℕ → List T}, (∀ s < P, D (s + 1) = D s + (m s).length) →
      ∀ s t, s ≤ t → t ≤ P → D s ≤ D t := by
    intro D m hD s t hst htP
    induction t with
    | zero => obtain rfl : s = 0 := by omega
              exact le_rfl
    | succ t ih =>
      rcases Nat.lt_or_ge t s with h' | h'
      · obtain rfl : s = t + 1 := by omega
        exact le_rfl
      · have := ih h' (by omega)
        rw [hD t (by omega)]; omega
  refine ⟨hk, ?_, ?_, ?_⟩
  · intro r hr s hs hsl
    cases h r hr with
    | all D m h1 h2 h3 h4 => rw [h1 s hs] at hsl; cases hsl
    | nobody h1 h2 => exact h2 s hs
    | root m h0 h1 h2 h3 h4 =>
      by_cases hs0 : s = 0
      · subst hs0; rw [h0] at hsl; cases hsl
      · exact h4 s hs hs0
  · intro r hr s hs d c hsl
    cases h r hr with
    | all D m h1 h2 h3 h4 =>
      rw [h1 s hs] at hsl
      obtain ⟨rfl, rfl⟩ := Prod.mk.inj (Option.some.inj hsl)
      refine ⟨m s, h2 s hs, rfl, ?_⟩
      have := mono h3 (s + 1) P (by omega) le_rfl
      rw [h3 s hs] at this; omega
    | nobody h1 h2 => rw [h1 s hs] at hsl; cases hsl
    | root m h0 h1 h2 h3 h4 =>
      by_cases hs0 : s = 0
      · subst hs0
        rw [h0] at hsl
        obtain ⟨rfl, rfl⟩ := Prod.mk.inj (Option.some.inj hsl)
        exact ⟨m, h1, rfl, by omega⟩
      · rw [h3 s hs hs0] at hsl; cases hsl
  · intro r hr s hs s' hs' hne d c d' c' e1 e2
    cases h r hr with
    | all D m h1 h2 h3 h4 =>
      rw [h1 s hs] at e1; rw [h1 s' hs'] at e2
      obtain ⟨rfl, rfl⟩ := Prod.mk.inj (Option.some.inj e1)
      obtain ⟨rfl, rfl⟩ := Prod.mk.inj (Option.some.inj e2)
      rcases Nat.lt_or_ge s s' with hlt | hge
      · left; have := mono h3 (s + 1) s' (by omega) (by omega)
        rw [h3 s hs] at this; exact this
      · right; have := mono h3 (s' + 1) s (by omega) (by omega)
        rw [h3 s' hs'] at this; exact this
    | nobody h1 h2 => rw [h1 s hs] at e1; cases e1
    | root m h0 h1 h2 h3 h4 =>
      by_cases hs0 : s = 0
      · rw [h3 s' hs' (by omega)] at e2; cases e2
      · rw [h3 s hs hs0] at e1; cases e1

theorem Runs.call {P : ℕ} {cs : ℕ → Coll T} (hm : Matched P cs) :
    Runs P (fun r => Prog.call (cs r)) (fun r => recvAll P cs r) :=
  .step cs (fun _ b => .ret (ok b)) (fun _ _ => rfl) hm (.done (fun _ _ => rfl))

/-- local computations that succeed do not matter -/
theorem Runs.lift {α β : Type} {P : ℕ} {x : ℕ → Res α} {a : ℕ → α} {q : ℕ → α → Prog T β} {b : ℕ → β}
    (hx : ∀ r < P, x r = ok (a r)) (hq : Runs P (fun r => q r (a r)) b) :
    Runs P (fun r => (liftM (x r) : Prog T α) >>= q r) b :=
  hq.congr (fun r hr => by rw [hx r hr]; rfl) (fun _ _ => rfl)

@[simp] theorem liftM_ok {α : Type} (a : α) : (liftM (ok a) : Prog T α) = .ret (ok a) := rfl
@[simp] theorem liftM_err {α : Type} (e : Err) : (liftM (err e : Res α) : Prog T α) = .ret (err e) := rfl

theorem partition_ok {buf : List T} {P : ℕ} {c D : ℕ → ℕ} (hb : buf.length < 2 ^ 31)
    (h : ∀ s < P, D s + c s ≤ buf.length) :
    partition buf ((List.range P).map (fun s => (c s : ℤ))) ((List.range P).map (fun s => (D s : ℤ)))
      = ok ((List.range P).map (fun s => (D s, c s))) := by
  have hz : ((List.range P).map (fun s => (c s : ℤ))).zip ((List.range P).map (fun s => (D s : ℤ)))
      = (List.range P).map (fun s => ((c s : ℤ), (D s : ℤ))) := by
    rw [List.zip_map']
  unfold partition
  rw [hz, if_pos, if_pos]
  · simp [List.map_map, Function.comp_def]
  · intro cd hcd
    obtain ⟨s, hs, rfl⟩ := List.mem_map.1 hcd
    constructor <;> simp
  · refine ⟨hb, ?_⟩
    intro cd hcd
    obtain ⟨s, hs, rfl⟩ := List.mem_map.1 hcd
    have := h s (by simpa using hs)
    change (c s : ℤ) + (D s : ℤ) ≤ _
    omega

theorem parts_ok {P : ℕ} (f : ℕ → ℕ × ℕ) : parts P ((List.range P).map f) = ok () := by
  unfold parts; rw [if_pos (by simp)]

theorem slice_ok {buf : List T} (h : buf.length < 2 ^ 31) : slice buf = ok () := assertR_ok h

end Verif.Mpi

namespace Verif
open Res

theorem i32Add_ok (o : Mode) {a b : ℤ} (h : -2 ^ 31 ≤ a + b) (h' : a + b < 2 ^ 31) :
    o.i32Add a b = ok (a + b) := by unfold Mode.i32Add; rw [if_pos ⟨h, h'⟩]

theorem displs_ok (o : Mode) {c D : ℕ → ℕ} (hD : ∀ s, D (s + 1) = D s + c s) (k a : ℕ)
    (hb : ∀ s ≤ a + k, D s < 2 ^ 31) :
    Dist.displs o (D a) ((List.range' a k).map (fun s => (c s : ℤ)))
      = ok ((List.range' a k).map (fun s => (D s : ℤ))) := by
  induction k generalizing a with
  | zero => rfl
  | succ k ih =>
    rw [List.range'_succ, List.map_cons, List.map_cons]
    unfold Dist.displs
    have h1 : D (a + 1) < 2 ^ 31 := hb (a + 1) (by omega)
    have e : (D a : ℤ) + (c a : ℤ) = (D (a + 1) : ℤ) := by rw [hD]; push_cast; ring
    rw [i32Add_ok o (by rw [e]; omega) (by rw [e]; exact_mod_cast h1), bind_ok, e,
      ih (a + 1) (fun s hs => hb s (by omega))]
    rfl

end Verif
