/- The kernels commute with maps of the data that respect the operations. -/
import Verif.Model.Spaces
import Verif.Spec.Parts

namespace Verif
open Res Spec

/-- `s` is `r` with the result mapped by `φ`. -/
def NatR {α β : Type} (φ : α → β) (r : Res α) (s : Res β) : Prop := s = onResult φ r

section
variable {α β γ δ : Type}

theorem NatR.ok {φ : α → β} {a : α} {b : β} (h : b = φ a) : NatR φ (ok a) (ok b) := by subst h; rfl
theorem NatR.pure {φ : α → β} {a : α} {b : β} (h : b = φ a) : NatR φ (pure a) (pure b) := by
  subst h; rfl
theorem NatR.err {φ : α → β} (e : Err) : NatR φ (err e) (err e) := rfl

theorem NatR.bind {φ : α → β} {ψ : γ → δ} {r : Res α} {s : Res β} {f : α → Res γ} {g : β → Res δ}
    (h : NatR φ r s) (hf : ∀ a, NatR ψ (f a) (g (φ a))) : NatR ψ (r >>= f) (s >>= g) := by
  unfold NatR at h
  subst h
  cases r with
  | ok a => exact hf a
  | err e => rfl

theorem NatR.same {ψ : γ → δ} {r : Res α} {f : α → Res γ} {g : α → Res δ}
    (hf : ∀ a, NatR ψ (f a) (g a)) : NatR ψ (r >>= f) (r >>= g) := by
  cases r with
  | ok a => exact hf a
  | err e => rfl

theorem NatR.ite {φ : α → β} {c : Prop} [Decidable c] {r s : Res α} {r' s' : Res β}
    (h : NatR φ r r') (h' : NatR φ s s') :
    NatR φ (if c then r else s) (if c then r' else s') := by
  split <;> assumption

theorem NatR.forList {φ : α → β} {ι : Type} (is : List ι) {f : ι → α → Res α} {g : ι → β → Res β}
    (h : ∀ i a, NatR φ (f i a) (g i (φ a))) {a : α} {b : β} (hb : b = φ a) :
    NatR φ (forList is f a) (forList is g b) := by
  subst hb
  induction is generalizing a with
  | nil => exact NatR.ok rfl
  | cons i is ih =>
    simp only [Verif.forList]
    exact NatR.bind (h i a) fun a => ih

theorem NatR.forRange {φ : α → β} {a b : ℕ} {f : ℕ → α → Res α} {g : ℕ → β → Res β}
    (h : ∀ i a, NatR φ (f i a) (g i (φ a))) {s : α} {t : β} (hb : t = φ s) :
    NatR φ (forRange a b f s) (forRange a b g t) := NatR.forList _ h hb

theorem NatR.forRev {φ : α → β} {a b : ℕ} {f : ℕ → α → Res α} {g : ℕ → β → Res β}
    (h : ∀ i a, NatR φ (f i a) (g i (φ a))) {s : α} {t : β} (hb : t = φ s) :
    NatR φ (forRev a b f s) (forRev a b g t) := NatR.forList _ h hb

variable {T T' : Type} (h : T → T')

theorem NatR.rd (l : List T) (i : ℕ) : NatR h (rd l i) (rd (l.map h) i) := by
  unfold Verif.rd
  rw [List.getElem?_map]
  cases l[i]? <;> rfl

theorem NatR.rdC (l : List T) (i : ℕ) : NatR h (rdC l i) (rdC (l.map h) i) := by
  unfold Verif.rdC
  rw [List.getElem?_map]
  cases l[i]? <;> rfl

theorem NatR.wr (l : List T) (i : ℕ) {x : T} {x' : T'} (hx : x' = h x) :
    NatR (List.map h) (wr l i x) (wr (l.map h) i x') := by
  subst hx
  unfold Verif.wr
  rw [List.length_map]
  split
  · exact NatR.ok (by rw [List.map_set])
  · rfl

theorem NatR.wrC (l : List T) (i : ℕ) {x : T} {x' : T'} (hx : x' = h x) :
    NatR (List.map h) (wrC l i x) (wrC (l.map h) i x') := by
  subst hx
  unfold Verif.wrC
  rw [List.length_map]
  split
  · exact NatR.ok (by rw [List.map_set])
  · rfl

theorem NatR.div {K : Type} [DivBy K T] [DivBy K T'] (hd : ∀ x (k : K), divR (h x) k = onResult h (divR x k))
    {x : T} {x' : T'} (hx : x' = h x) (k : K) : NatR h (divR x k) (divR x' k) := by
  subst hx; exact hd x k

end

/-- map of the data in the work vectors of the five-diagonal solvers -/
def PentaWork.map {K T T' : Type} (h : T → T') (s : PentaWork K T) : PentaWork K T' :=
  ⟨s.al, s.be, s.ze.map h, s.ga, s.mu⟩

section
variable {K T T' : Type} (h : T → T') (s : PentaWork K T)
@[simp] theorem PentaWork.map_al : (s.map h).al = s.al := rfl
@[simp] theorem PentaWork.map_be : (s.map h).be = s.be := rfl
@[simp] theorem PentaWork.map_ga : (s.map h).ga = s.ga := rfl
@[simp] theorem PentaWork.map_mu : (s.map h).mu = s.mu := rfl
@[simp] theorem PentaWork.map_ze : (s.map h).ze = s.ze.map h := rfl
end

/-- decompose a naturality goal structurally; the map is called `h`, its properties `H` -/
macro "natstep" H:ident h:ident : tactic => `(tactic| with_reducible first
  | exact NatR.err _
  | refine NatR.same (fun _ => ?_)
  | refine NatR.bind (NatR.rd $h _ _) (fun _ => ?_)
  | refine NatR.bind (NatR.rdC $h _ _) (fun _ => ?_)
  | refine NatR.bind (NatR.div $h (Respects.div $H) (by simp only [($H).add, ($H).sub, ($H).smul, ($H).zero]) _) (fun _ => ?_)
  | refine NatR.bind (NatR.wr $h _ _ (by simp only [($H).add, ($H).sub, ($H).smul, ($H).zero])) (fun _ => ?_)
  | refine NatR.bind (NatR.wrC $h _ _ (by simp only [($H).add, ($H).sub, ($H).smul, ($H).zero])) (fun _ => ?_)
  | exact NatR.wr $h _ _ (by simp only [($H).add, ($H).sub, ($H).smul, ($H).zero])
  | exact NatR.wrC $h _ _ (by simp only [($H).add, ($H).sub, ($H).smul, ($H).zero])
  | refine NatR.ite ?_ ?_
  | refine NatR.bind (NatR.forRange (φ := List.map $h) (fun _ _ => ?_) (by simp only [($H).zero, List.map_replicate])) (fun _ => ?_)
  | refine NatR.forRange (φ := List.map $h) (fun _ _ => ?_) (by simp only [($H).zero, List.map_replicate])
  | refine NatR.bind (NatR.forRev (φ := List.map $h) (fun _ _ => ?_) (by simp only [($H).zero, List.map_replicate])) (fun _ => ?_)
  | refine NatR.forRev (φ := List.map $h) (fun _ _ => ?_) (by simp only [($H).zero, List.map_replicate])
  | exact NatR.pure rfl
  | exact NatR.ok rfl)

section Solvers
variable {K T T' : Type} [Zero K] [Sub K] [Mul K] [DivBy K K] [Zero T] [Add T] [Sub T] [SMul K T] [DivBy K T]
  [Zero T'] [Add T'] [Sub T'] [SMul K T'] [DivBy K T'] {h : T → T'}

theorem nat_tdma (H : Respects K h) (l2 d0 u2 : List K) (rhs : List T) :
    NatR (List.map h) (tdma l2 d0 u2 rhs) (tdma l2 d0 u2 (rhs.map h)) := by
  unfold tdma
  simp only [List.length_map, ← H.zero, ← List.map_replicate]
  repeat' natstep H h


theorem nat_tdmaChecked (H : Respects K h) (l2 d0 u2 : List K) (rhs : List T) :
    NatR (List.map h) (tdmaChecked l2 d0 u2 rhs) (tdmaChecked l2 d0 u2 (rhs.map h)) := by
  unfold tdmaChecked
  simp only [List.length_map, ← H.zero, ← List.map_replicate]
  repeat' natstep H h

theorem nat_pdmaRow (H : Respects K h) (l2 : List K) (l1 : List K) (d0 : List K) (u1 : List K) (u2 : List K) (rhs : List T) (i : ℕ) (s : PentaWork K T) :
    NatR (PentaWork.map h) (pdmaRow l2 l1 d0 u1 u2 rhs i s) (pdmaRow l2 l1 d0 u1 u2 (rhs.map h) i (s.map h)) := by
  unfold pdmaRow
  simp only [PentaWork.map_al, PentaWork.map_be, PentaWork.map_ga, PentaWork.map_mu, PentaWork.map_ze]
  repeat' natstep H h

theorem nat_pdmaInit (H : Respects K h) (l1 : List K) (d0 : List K) (u1 : List K) (u2 : List K) (rhs : List T) (s : PentaWork K T) :
    NatR (PentaWork.map h) (pdmaInit l1 d0 u1 u2 rhs s) (pdmaInit l1 d0 u1 u2 (rhs.map h) (s.map h)) := by
  unfold pdmaInit
  simp only [PentaWork.map_al, PentaWork.map_be, PentaWork.map_ga, PentaWork.map_mu, PentaWork.map_ze]
  repeat' natstep H h

theorem nat_pdmaRowN2 (H : Respects K h) (l2 : List K) (l1 : List K) (d0 : List K) (u1 : List K) (rhs : List T) (n : ℕ) (s : PentaWork K T) :
    NatR (PentaWork.map h) (pdmaRowN2 l2 l1 d0 u1 rhs n s) (pdmaRowN2 l2 l1 d0 u1 (rhs.map h) n (s.map h)) := by
  unfold pdmaRowN2
  simp only [PentaWork.map_al, PentaWork.map_be, PentaWork.map_ga, PentaWork.map_mu, PentaWork.map_ze]
  repeat' natstep H h

theorem nat_pdmaRowN1 (H : Respects K h) (l2 : List K) (l1 : List K) (d0 : List K) (rhs : List T) (n : ℕ) (s : PentaWork K T) :
    NatR (PentaWork.map h) (pdmaRowN1 l2 l1 d0 rhs n s) (pdmaRowN1 l2 l1 d0 (rhs.map h) n (s.map h)) := by
  unfold pdmaRowN1
  simp only [PentaWork.map_al, PentaWork.map_be, PentaWork.map_ga, PentaWork.map_mu, PentaWork.map_ze]
  repeat' natstep H h

theorem nat_pdmaCheckedRow (H : Respects K h) (l2 : List K) (l1 : List K) (d0 : List K) (u1 : List K) (u2 : List K) (rhs : List T) (i : ℕ) (s : PentaWork K T) :
    NatR (PentaWork.map h) (pdmaCheckedRow l2 l1 d0 u1 u2 rhs i s) (pdmaCheckedRow l2 l1 d0 u1 u2 (rhs.map h) i (s.map h)) := by
  unfold pdmaCheckedRow
  simp only [PentaWork.map_al, PentaWork.map_be, PentaWork.map_ga, PentaWork.map_mu, PentaWork.map_ze]
  repeat' natstep H h

theorem nat_pdmaCheckedInit (H : Respects K h) (l1 : List K) (d0 : List K) (u1 : List K) (u2 : List K) (rhs : List T) (s : PentaWork K T) :
    NatR (PentaWork.map h) (pdmaCheckedInit l1 d0 u1 u2 rhs s) (pdmaCheckedInit l1 d0 u1 u2 (rhs.map h) (s.map h)) := by
  unfold pdmaCheckedInit
  simp only [PentaWork.map_al, PentaWork.map_be, PentaWork.map_ga, PentaWork.map_mu, PentaWork.map_ze]
  repeat' natstep H h

theorem nat_pdmaCheckedRowN2 (H : Respects K h) (l2 : List K) (l1 : List K) (d0 : List K) (u1 : List K) (rhs : List T) (n : ℕ) (s : PentaWork K T) :
    NatR (PentaWork.map h) (pdmaCheckedRowN2 l2 l1 d0 u1 rhs n s) (pdmaCheckedRowN2 l2 l1 d0 u1 (rhs.map h) n (s.map h)) := by
  unfold pdmaCheckedRowN2
  simp only [PentaWork.map_al, PentaWork.map_be, PentaWork.map_ga, PentaWork.map_mu, PentaWork.map_ze]
  repeat' natstep H h

theorem nat_pdmaCheckedRowN1 (H : Respects K h) (l2 : List K) (l1 : List K) (d0 : List K) (rhs : List T) (n : ℕ) (s : PentaWork K T) :
    NatR (PentaWork.map h) (pdmaCheckedRowN1 l2 l1 d0 rhs n s) (pdmaCheckedRowN1 l2 l1 d0 (rhs.map h) n (s.map h)) := by
  unfold pdmaCheckedRowN1
  simp only [PentaWork.map_al, PentaWork.map_be, PentaWork.map_ga, PentaWork.map_mu, PentaWork.map_ze]
  repeat' natstep H h

theorem nat_pdma2Init01 (H : Respects K h) (d0 : List K) (u2 : List K) (u4 : List K) (rhs : List T) (s : PentaWork K T) :
    NatR (PentaWork.map h) (pdma2Init01 d0 u2 u4 rhs s) (pdma2Init01 d0 u2 u4 (rhs.map h) (s.map h)) := by
  unfold pdma2Init01
  simp only [PentaWork.map_al, PentaWork.map_be, PentaWork.map_ga, PentaWork.map_mu, PentaWork.map_ze]
  repeat' natstep H h

theorem nat_pdma2Init2 (H : Respects K h) (l2 : List K) (d0 : List K) (u2 : List K) (u4 : List K) (rhs : List T) (s : PentaWork K T) :
    NatR (PentaWork.map h) (pdma2Init2 l2 d0 u2 u4 rhs s) (pdma2Init2 l2 d0 u2 u4 (rhs.map h) (s.map h)) := by
  unfold pdma2Init2
  simp only [PentaWork.map_al, PentaWork.map_be, PentaWork.map_ga, PentaWork.map_mu, PentaWork.map_ze]
  repeat' natstep H h

theorem nat_pdma2Init3 (H : Respects K h) (l2 : List K) (d0 : List K) (u2 : List K) (u4 : List K) (rhs : List T) (s : PentaWork K T) :
    NatR (PentaWork.map h) (pdma2Init3 l2 d0 u2 u4 rhs s) (pdma2Init3 l2 d0 u2 u4 (rhs.map h) (s.map h)) := by
  unfold pdma2Init3
  simp only [PentaWork.map_al, PentaWork.map_be, PentaWork.map_ga, PentaWork.map_mu, PentaWork.map_ze]
  repeat' natstep H h

theorem nat_pdma2Row (H : Respects K h) (l4 : List K) (l2 : List K) (d0 : List K) (u2 : List K) (u4 : List K) (rhs : List T) (i : ℕ) (s : PentaWork K T) :
    NatR (PentaWork.map h) (pdma2Row l4 l2 d0 u2 u4 rhs i s) (pdma2Row l4 l2 d0 u2 u4 (rhs.map h) i (s.map h)) := by
  unfold pdma2Row
  simp only [PentaWork.map_al, PentaWork.map_be, PentaWork.map_ga, PentaWork.map_mu, PentaWork.map_ze]
  repeat' natstep H h

theorem nat_pdma2RowN4 (H : Respects K h) (l4 : List K) (l2 : List K) (d0 : List K) (u2 : List K) (rhs : List T) (n : ℕ) (s : PentaWork K T) :
    NatR (PentaWork.map h) (pdma2RowN4 l4 l2 d0 u2 rhs n s) (pdma2RowN4 l4 l2 d0 u2 (rhs.map h) n (s.map h)) := by
  unfold pdma2RowN4
  simp only [PentaWork.map_al, PentaWork.map_be, PentaWork.map_ga, PentaWork.map_mu, PentaWork.map_ze]
  repeat' natstep H h

theorem nat_pdma2RowN3 (H : Respects K h) (l4 : List K) (l2 : List K) (d0 : List K) (u2 : List K) (rhs : List T) (n : ℕ) (s : PentaWork K T) :
    NatR (PentaWork.map h) (pdma2RowN3 l4 l2 d0 u2 rhs n s) (pdma2RowN3 l4 l2 d0 u2 (rhs.map h) n (s.map h)) := by
  unfold pdma2RowN3
  simp only [PentaWork.map_al, PentaWork.map_be, PentaWork.map_ga, PentaWork.map_mu, PentaWork.map_ze]
  repeat' natstep H h

theorem nat_pdma2RowN2 (H : Respects K h) (l4 : List K) (l2 : List K) (d0 : List K) (rhs : List T) (n : ℕ) (s : PentaWork K T) :
    NatR (PentaWork.map h) (pdma2RowN2 l4 l2 d0 rhs n s) (pdma2RowN2 l4 l2 d0 (rhs.map h) n (s.map h)) := by
  unfold pdma2RowN2
  simp only [PentaWork.map_al, PentaWork.map_be, PentaWork.map_ga, PentaWork.map_mu, PentaWork.map_ze]
  repeat' natstep H h

theorem nat_pdma2RowN1 (H : Respects K h) (l4 : List K) (l2 : List K) (d0 : List K) (rhs : List T) (n : ℕ) (s : PentaWork K T) :
    NatR (PentaWork.map h) (pdma2RowN1 l4 l2 d0 rhs n s) (pdma2RowN1 l4 l2 d0 (rhs.map h) n (s.map h)) := by
  unfold pdma2RowN1
  simp only [PentaWork.map_al, PentaWork.map_be, PentaWork.map_ga, PentaWork.map_mu, PentaWork.map_ze]
  repeat' natstep H h

theorem nat_pdma2CheckedInit01 (H : Respects K h) (d0 : List K) (u2 : List K) (u4 : List K) (rhs : List T) (s : PentaWork K T) :
    NatR (PentaWork.map h) (pdma2CheckedInit01 d0 u2 u4 rhs s) (pdma2CheckedInit01 d0 u2 u4 (rhs.map h) (s.map h)) := by
  unfold pdma2CheckedInit01
  simp only [PentaWork.map_al, PentaWork.map_be, PentaWork.map_ga, PentaWork.map_mu, PentaWork.map_ze]
  repeat' natstep H h

theorem nat_pdma2CheckedInit2 (H : Respects K h) (l2 : List K) (d0 : List K) (u2 : List K) (u4 : List K) (rhs : List T) (s : PentaWork K T) :
    NatR (PentaWork.map h) (pdma2CheckedInit2 l2 d0 u2 u4 rhs s) (pdma2CheckedInit2 l2 d0 u2 u4 (rhs.map h) (s.map h)) := by
  unfold pdma2CheckedInit2
  simp only [PentaWork.map_al, PentaWork.map_be, PentaWork.map_ga, PentaWork.map_mu, PentaWork.map_ze]
  repeat' natstep H h

theorem nat_pdma2CheckedInit3 (H : Respects K h) (l2 : List K) (d0 : List K) (u2 : List K) (u4 : List K) (rhs : List T) (s : PentaWork K T) :
    NatR (PentaWork.map h) (pdma2CheckedInit3 l2 d0 u2 u4 rhs s) (pdma2CheckedInit3 l2 d0 u2 u4 (rhs.map h) (s.map h)) := by
  unfold pdma2CheckedInit3
  simp only [PentaWork.map_al, PentaWork.map_be, PentaWork.map_ga, PentaWork.map_mu, PentaWork.map_ze]
  repeat' natstep H h

theorem nat_pdma2CheckedRow (H : Respects K h) (l4 : List K) (l2 : List K) (d0 : List K) (u2 : List K) (u4 : List K) (rhs : List T) (i : ℕ) (s : PentaWork K T) :
    NatR (PentaWork.map h) (pdma2CheckedRow l4 l2 d0 u2 u4 rhs i s) (pdma2CheckedRow l4 l2 d0 u2 u4 (rhs.map h) i (s.map h)) := by
  unfold pdma2CheckedRow
  simp only [PentaWork.map_al, PentaWork.map_be, PentaWork.map_ga, PentaWork.map_mu, PentaWork.map_ze]
  repeat' natstep H h

theorem nat_pdma2CheckedRowN4 (H : Respects K h) (l4 : List K) (l2 : List K) (d0 : List K) (u2 : List K) (rhs : List T) (n : ℕ) (s : PentaWork K T) :
    NatR (PentaWork.map h) (pdma2CheckedRowN4 l4 l2 d0 u2 rhs n s) (pdma2CheckedRowN4 l4 l2 d0 u2 (rhs.map h) n (s.map h)) := by
  unfold pdma2CheckedRowN4
  simp only [PentaWork.map_al, PentaWork.map_be, PentaWork.map_ga, PentaWork.map_mu, PentaWork.map_ze]
  repeat' natstep H h

theorem nat_pdma2CheckedRowN3 (H : Respects K h) (l4 : List K) (l2 : List K) (d0 : List K) (u2 : List K) (rhs : List T) (n : ℕ) (s : PentaWork K T) :
    NatR (PentaWork.map h) (pdma2CheckedRowN3 l4 l2 d0 u2 rhs n s) (pdma2CheckedRowN3 l4 l2 d0 u2 (rhs.map h) n (s.map h)) := by
  unfold pdma2CheckedRowN3
  simp only [PentaWork.map_al, PentaWork.map_be, PentaWork.map_ga, PentaWork.map_mu, PentaWork.map_ze]
  repeat' natstep H h

theorem nat_pdma2CheckedRowN2 (H : Respects K h) (l4 : List K) (l2 : List K) (d0 : List K) (rhs : List T) (n : ℕ) (s : PentaWork K T) :
    NatR (PentaWork.map h) (pdma2CheckedRowN2 l4 l2 d0 rhs n s) (pdma2CheckedRowN2 l4 l2 d0 (rhs.map h) n (s.map h)) := by
  unfold pdma2CheckedRowN2
  simp only [PentaWork.map_al, PentaWork.map_be, PentaWork.map_ga, PentaWork.map_mu, PentaWork.map_ze]
  repeat' natstep H h

theorem nat_pdma2CheckedRowN1 (H : Respects K h) (l4 : List K) (l2 : List K) (d0 : List K) (rhs : List T) (n : ℕ) (s : PentaWork K T) :
    NatR (PentaWork.map h) (pdma2CheckedRowN1 l4 l2 d0 rhs n s) (pdma2CheckedRowN1 l4 l2 d0 (rhs.map h) n (s.map h)) := by
  unfold pdma2CheckedRowN1
  simp only [PentaWork.map_al, PentaWork.map_be, PentaWork.map_ga, PentaWork.map_mu, PentaWork.map_ze]
  repeat' natstep H h

/-- the work vectors of the solvers, freshly allocated -/
theorem PentaWork.map_new (H : Respects K h) (al be ga mu : List K) (n : ℕ) :
    (⟨al, be, List.replicate n 0, ga, mu⟩ : PentaWork K T') =
      PentaWork.map h ⟨al, be, List.replicate n 0, ga, mu⟩ := by
  simp only [PentaWork.map, List.map_replicate, H.zero]

theorem nat_pdma (H : Respects K h) (l2 l1 d0 u1 u2 : List K) (rhs : List T) :
    NatR (List.map h) (pdma l2 l1 d0 u1 u2 rhs) (pdma l2 l1 d0 u1 u2 (rhs.map h)) := by
  unfold pdma
  simp only [List.length_map, PentaWork.map_new H]
  repeat' natstep H h
  refine NatR.bind (nat_pdmaInit H _ _ _ _ _ _) fun s => ?_
  refine NatR.same fun _ => ?_
  refine NatR.bind (NatR.forRange (fun i s => nat_pdmaRow H _ _ _ _ _ _ i s) rfl) fun s => ?_
  refine NatR.bind (nat_pdmaRowN2 H _ _ _ _ _ _ _) fun s => ?_
  refine NatR.bind (nat_pdmaRowN1 H _ _ _ _ _ _) fun s => ?_
  simp only [PentaWork.map_al, PentaWork.map_be, PentaWork.map_ze]
  repeat' natstep H h

theorem nat_pdma2 (H : Respects K h) (l4 l2 d0 u2 u4 : List K) (rhs : List T) :
    NatR (List.map h) (pdma2 l4 l2 d0 u2 u4 rhs) (pdma2 l4 l2 d0 u2 u4 (rhs.map h)) := by
  unfold pdma2
  simp only [List.length_map, PentaWork.map_new H]
  repeat' natstep H h
  refine NatR.bind (nat_pdma2Init01 H _ _ _ _ _) fun s => ?_
  refine NatR.bind (nat_pdma2Init2 H _ _ _ _ _ _) fun s => ?_
  refine NatR.bind (nat_pdma2Init3 H _ _ _ _ _ _) fun s => ?_
  refine NatR.same fun _ => ?_
  refine NatR.bind (NatR.forRange (fun i s => nat_pdma2Row H _ _ _ _ _ _ i s) rfl) fun s => ?_
  refine NatR.bind (nat_pdma2RowN4 H _ _ _ _ _ _ _) fun s => ?_
  refine NatR.bind (nat_pdma2RowN3 H _ _ _ _ _ _ _) fun s => ?_
  refine NatR.bind (nat_pdma2RowN2 H _ _ _ _ _ _) fun s => ?_
  refine NatR.bind (nat_pdma2RowN1 H _ _ _ _ _ _) fun s => ?_
  simp only [PentaWork.map_al, PentaWork.map_be, PentaWork.map_ze]
  repeat' natstep H h

theorem nat_pdmaChecked (H : Respects K h) (l2 l1 d0 u1 u2 : List K) (rhs : List T) :
    NatR (List.map h) (pdmaChecked l2 l1 d0 u1 u2 rhs) (pdmaChecked l2 l1 d0 u1 u2 (rhs.map h)) := by
  unfold pdmaChecked
  simp only [List.length_map, PentaWork.map_new H]
  repeat' natstep H h
  refine NatR.bind (nat_pdmaCheckedInit H _ _ _ _ _ _) fun s => ?_
  refine NatR.same fun _ => ?_
  refine NatR.bind (NatR.forRange (fun i s => nat_pdmaCheckedRow H _ _ _ _ _ _ i s) rfl) fun s => ?_
  refine NatR.bind (nat_pdmaCheckedRowN2 H _ _ _ _ _ _ _) fun s => ?_
  refine NatR.bind (nat_pdmaCheckedRowN1 H _ _ _ _ _ _) fun s => ?_
  simp only [PentaWork.map_al, PentaWork.map_be, PentaWork.map_ze]
  repeat' natstep H h

theorem nat_pdma2Checked (H : Respects K h) (l4 l2 d0 u2 u4 : List K) (rhs : List T) :
    NatR (List.map h) (pdma2Checked l4 l2 d0 u2 u4 rhs) (pdma2Checked l4 l2 d0 u2 u4 (rhs.map h)) := by
  unfold pdma2Checked
  simp only [List.length_map, PentaWork.map_new H]
  repeat' natstep H h
  refine NatR.bind (nat_pdma2CheckedInit01 H _ _ _ _ _) fun s => ?_
  refine NatR.bind (nat_pdma2CheckedInit2 H _ _ _ _ _ _) fun s => ?_
  refine NatR.bind (nat_pdma2CheckedInit3 H _ _ _ _ _ _) fun s => ?_
  refine NatR.same fun _ => ?_
  refine NatR.bind (NatR.forRange (fun i s => nat_pdma2CheckedRow H _ _ _ _ _ _ i s) rfl) fun s => ?_
  refine NatR.bind (nat_pdma2CheckedRowN4 H _ _ _ _ _ _ _) fun s => ?_
  refine NatR.bind (nat_pdma2CheckedRowN3 H _ _ _ _ _ _ _) fun s => ?_
  refine NatR.bind (nat_pdma2CheckedRowN2 H _ _ _ _ _ _) fun s => ?_
  refine NatR.bind (nat_pdma2CheckedRowN1 H _ _ _ _ _ _) fun s => ?_
  simp only [PentaWork.map_al, PentaWork.map_be, PentaWork.map_ze]
  repeat' natstep H h

end Solvers

section Stencils
variable {K T T' : Type} [Zero K] [Add K] [Sub K] [Mul K] [DivBy K K]
  [Zero T] [Add T] [Sub T] [SMul K T] [DivBy K T]
  [Zero T'] [Add T'] [Sub T'] [SMul K T'] [DivBy K T'] {h : T → T'}

theorem Stencil2.nat_dot (H : Respects K h) (s : Stencil2 K) (v u : List T) :
    NatR (List.map h) (s.dot v u) (s.dot (v.map h) (u.map h)) := by
  unfold Stencil2.dot
  simp only [List.length_map]
  repeat' natstep H h

theorem Stencil3.nat_dot (H : Respects K h) (s : Stencil3 K) (v u : List T) :
    NatR (List.map h) (s.dot v u) (s.dot (v.map h) (u.map h)) := by
  unfold Stencil3.dot
  simp only [List.length_map]
  repeat' natstep H h

theorem Stencil4.nat_dot (H : Respects K h) (s : Stencil4 K) (v u : List T) :
    NatR (List.map h) (s.dot v u) (s.dot (v.map h) (u.map h)) := by
  unfold Stencil4.dot Stencil4.dotHead Stencil4.dotTail
  simp only [List.length_map]
  refine NatR.same fun _ => ?_
  refine NatR.bind (φ := List.map h) ?_ fun u => ?_
  · repeat' natstep H h
  · simp only [List.length_map]
    repeat' natstep H h

theorem Stencil2.nat_solve (H : Respects K h) (s : Stencil2 K) (u v : List T) :
    NatR (List.map h) (s.solve u v) (s.solve (u.map h) (v.map h)) := by
  unfold Stencil2.solve
  simp only [List.length_map]
  refine NatR.bind (φ := List.map h) ?_ fun u => nat_tdma H _ _ _ _
  repeat' natstep H h

theorem Stencil3.nat_solve (H : Respects K h) (s : Stencil3 K) (u v : List T) :
    NatR (List.map h) (s.solve u v) (s.solve (u.map h) (v.map h)) := by
  unfold Stencil3.solve
  simp only [List.length_map]
  refine NatR.bind (φ := List.map h) ?_ fun u => nat_pdma H _ _ _ _ _ _
  repeat' natstep H h

theorem Stencil4.nat_solve (H : Respects K h) (s : Stencil4 K) (u v : List T) :
    NatR (List.map h) (s.solve u v) (s.solve (u.map h) (v.map h)) := by
  unfold Stencil4.solve
  simp only [List.length_map]
  refine NatR.bind (φ := List.map h) ?_ fun u => nat_pdma2 H _ _ _ _ _ _
  repeat' natstep H h

theorem Stencils.nat_dot (H : Respects K h) (s : Stencils K) (v u : List T) :
    NatR (List.map h) (s.dot v u) (s.dot (v.map h) (u.map h)) := by
  cases s <;> first
    | exact Stencil2.nat_dot H _ _ _ | exact Stencil3.nat_dot H _ _ _ | exact Stencil4.nat_dot H _ _ _

theorem Stencils.nat_solve (H : Respects K h) (s : Stencils K) (u v : List T) :
    NatR (List.map h) (s.solve u v) (s.solve (u.map h) (v.map h)) := by
  cases s <;> first
    | exact Stencil2.nat_solve H _ _ _ | exact Stencil3.nat_solve H _ _ _
    | exact Stencil4.nat_solve H _ _ _

end Stencils

section Gradient
variable {K T T' : Type} [Mul K] [NatCast K] [Zero T] [Add T] [Sub T] [SMul K T] [DivBy K T]
  [Zero T'] [Add T'] [Sub T'] [SMul K T'] [DivBy K T'] {h : T → T'}

theorem nat_chebGradPass (H : Respects K h) (m : ℕ) (out : List T) :
    NatR (List.map h) (chebGradPass K m out) (chebGradPass K m (out.map h)) := by
  unfold chebGradPass
  repeat' natstep H h

theorem zipSet_map {T T' : Type} (h : T → T') : ∀ (x y : List T),
    zipSet id (x.map h) (y.map h) = (zipSet id x y).map h
  | [], y => by cases y <;> rfl
  | x :: xs, [] => rfl
  | x :: xs, y :: ys => by
    simp only [List.map_cons, zipSet, id, zipSet_map h xs ys]

theorem Cheb.nat_gradientSlice (H : Respects K h) (b : Cheb) (x y : List T) (n : ℕ) :
    NatR (List.map h) (b.gradientSlice K x y n) (b.gradientSlice K (x.map h) (y.map h) n) := by
  unfold Cheb.gradientSlice
  simp only [List.length_map, zipSet_map]
  refine NatR.same fun _ => ?_
  exact NatR.forRange (fun _ a => nat_chebGradPass H _ _) rfl

end Gradient
end Verif
