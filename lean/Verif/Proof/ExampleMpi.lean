/-
Programs on a common network, and the example programs.
-/
import Verif.Model.ExampleMpi
import Verif.Props.SpaceMpi

namespace Verif.Mpi
open Res
variable {T U α : Type} (c : Codec T U)

theorem place_map (f : T → U) (buf : List T) (d : ℕ) (m : List T) :
    place (buf.map f) d (m.map f) = (place buf d m).map f := by
  simp [place, List.map_take, List.map_drop]

theorem Matched.wire {P : ℕ} {cs : ℕ → Coll T} (h : Matched P cs) :
    Matched P (fun r => (cs r).wire c) where
  kind := h.kind
  none r hr s hs e := by
    show ((cs s).out r).map (List.map c.enc) = Option.none
    rw [h.none r hr s hs e]; rfl
  some r hr s hs d k e := by
    obtain ⟨m, h1, h2, h3⟩ := h.some r hr s hs d k e
    refine ⟨m.map c.enc, ?_, by simpa using h2, by simpa [Coll.wire] using h3⟩
    show ((cs s).out r).map (List.map c.enc) = _
    rw [h1]; rfl
  disj := h.disj

theorem store_wire (cs : ℕ → Coll T) (r : ℕ) (buf : List T) (l : List ℕ) :
    store (fun r => (cs r).wire c) r (buf.map c.enc) l = (store cs r buf l).map c.enc := by
  induction l with
  | nil => rfl
  | cons s l ih =>
    unfold store at ih ⊢
    rw [List.foldr_cons, List.foldr_cons, ih]
    show (match ((cs s).out r).map (List.map c.enc), (cs r).slot s with
      | some m, some (d, _) => place _ d m
      | _, _ => _) = _
    cases (cs s).out r with
    | none => rfl
    | some m =>
      cases (cs r).slot s with
      | none => rfl
      | some dk => exact place_map _ _ _ _

theorem recvAll_wire (P : ℕ) (cs : ℕ → Coll T) (r : ℕ) :
    recvAll P (fun r => (cs r).wire c) r = (recvAll P cs r).map c.enc := store_wire c cs r _ _

theorem Runs.wire {P : ℕ} {ps : ℕ → Prog T α} {a : ℕ → α} (h : Runs P ps a) :
    Runs P (fun r => (ps r).wire c) a := by
  induction h with
  | done h => exact .done (fun r hr => by rw [h r hr]; rfl)
  | @step ps a cs k h hm hr ih =>
    refine .step (fun r => (cs r).wire c) (fun r b => (k r (b.map c.dec)).wire c)
      (fun r hr => by rw [h r hr]; rfl) (hm.wire c) (ih.congr (fun r hr => ?_) (fun _ _ => rfl))
    rw [recvAll_wire, List.map_map]
    have : (c.dec ∘ c.enc) = id := funext c.dec_enc
    rw [this, List.map_id]

end Verif.Mpi
