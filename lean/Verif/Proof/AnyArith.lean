/- The kernels in an arbitrary arithmetic with total division. -/
import Verif.Spec.Arith
import Verif.Spec.Space
import Verif.Proof.Fill
import Verif.Proof.ChebGrad

namespace Verif
open Res Spec

section
variable {K T : Type} [DivBy K T] [TotalDiv K T] {Q : Err → Prop}

theorem wp_divT {x : T} {a : K} {P : T → Prop} (h : ∀ y, P y) : wp Q (divR x a) P := by
  obtain ⟨y, e⟩ := TotalDiv.div x a
  rw [e]; exact h y

end

/-- one step of symbolic execution, division being total -/
macro "wpstepT" : tactic => `(tactic| first
  | wpstep
  | with_reducible refine wp_divT (fun _ => ?_))

/-- symbolic execution of straight-line code, division being total -/
macro "wprunT" : tactic => `(tactic| repeat wpstepT)

/-! ### solvers -/

section
variable {K T : Type} [Zero K] [Sub K] [Mul K] [DivBy K K] [Zero T] [Sub T] [SMul K T] [DivBy K T]
  [TotalDiv K K] [TotalDiv K T] {Q : Err → Prop}

theorem tdma_len (l2 d0 u2 : List K) (rhs : List T) {n : ℕ} (hn : 3 ≤ n) (hr : rhs.length = n)
    (hl : l2.length = n - 2) (hd : d0.length = n) (hu : u2.length = n - 2) :
    wp Q (tdma l2 d0 u2 rhs) (fun x => x.length = n) := by
  unfold tdma
  rw [hr]
  wprunT
  refine wp_cut (fun w => w.length = n - 2) ?_ ?_
  · refine wp_ite_i (fun h => ?_) (fun h => ?_)
    · wprunT; simp
    · wprunT; simp
  intro w hw
  wprunT
  refine wp_forRange (fun _ w => w.length = n - 2) hw ?_ ?_
  · intro i w h2 hi hw
    wprunT; simpa using hw
  intro w hw
  wprunT
  refine wp_forRange (fun _ g => g.length = n) (by simp) ?_ ?_
  · intro i g h2 hi hg
    wprunT; simpa using hg
  intro g hg
  wprunT
  refine wp_forRev (fun _ x => x.length = n) (by simpa using hr) ?_ (fun _ h => h)
  intro i x h2 hi hx
  wprunT; simpa using hx

/-- lengths of the work vectors -/
structure PentaWork.Len (s : PentaWork K T) (n m1 m2 : ℕ) : Prop where
  al : s.al.length = m1
  be : s.be.length = m2
  ze : s.ze.length = n
  ga : s.ga.length = n
  mu : s.mu.length = n

/-- close a goal about lengths of overwritten work vectors -/
macro "plen" : tactic => `(tactic| (constructor <;> simp only [List.length_set] <;> first | assumption | omega))

variable {l2 l1 d0 u1 u2 l4 u4 : List K} {rhs : List T} {n : ℕ} {s : PentaWork K T}

set_option maxHeartbeats 800000 in
theorem pdmaInit_len (hn : 4 ≤ n) (hr : rhs.length = n) (hl2 : l2.length = n - 2) (hl1 : l1.length = n - 1)
    (hd : d0.length = n) (hu1 : u1.length = n - 1) (hu2 : u2.length = n - 2)
    (hs : s.Len n (n - 1) (n - 2)) : wp Q (pdmaInit l1 d0 u1 u2 rhs s) (fun s => s.Len n (n - 1) (n - 2)) := by
  obtain ⟨h1, h2, h3, h4, h5⟩ := hs
  unfold pdmaInit
  wprunT
  plen

set_option maxHeartbeats 800000 in
theorem pdmaRow_len {i : ℕ} (hn : 4 ≤ n) (hr : rhs.length = n) (hl2 : l2.length = n - 2) (hl1 : l1.length = n - 1)
    (hd : d0.length = n) (hu1 : u1.length = n - 1) (hu2 : u2.length = n - 2) (hi : 2 ≤ i) (hi2 : i < n - 2)
    (hs : s.Len n (n - 1) (n - 2)) : wp Q (pdmaRow l2 l1 d0 u1 u2 rhs i s) (fun s => s.Len n (n - 1) (n - 2)) := by
  obtain ⟨h1, h2, h3, h4, h5⟩ := hs
  unfold pdmaRow
  wprunT
  plen

set_option maxHeartbeats 800000 in
theorem pdmaRowN2_len (hn : 4 ≤ n) (hr : rhs.length = n) (hl2 : l2.length = n - 2) (hl1 : l1.length = n - 1)
    (hd : d0.length = n) (hu1 : u1.length = n - 1) (hu2 : u2.length = n - 2)
    (hs : s.Len n (n - 1) (n - 2)) : wp Q (pdmaRowN2 l2 l1 d0 u1 rhs n s) (fun s => s.Len n (n - 1) (n - 2)) := by
  obtain ⟨h1, h2, h3, h4, h5⟩ := hs
  unfold pdmaRowN2
  wprunT
  plen

set_option maxHeartbeats 800000 in
theorem pdmaRowN1_len (hn : 4 ≤ n) (hr : rhs.length = n) (hl2 : l2.length = n - 2) (hl1 : l1.length = n - 1)
    (hd : d0.length = n) (hu1 : u1.length = n - 1) (hu2 : u2.length = n - 2)
    (hs : s.Len n (n - 1) (n - 2)) : wp Q (pdmaRowN1 l2 l1 d0 rhs n s) (fun s => s.Len n (n - 1) (n - 2)) := by
  obtain ⟨h1, h2, h3, h4, h5⟩ := hs
  unfold pdmaRowN1
  wprunT
  plen

set_option maxHeartbeats 800000 in
theorem pdma2Init01_len (hn : 6 ≤ n) (hr : rhs.length = n) (hl4 : l4.length = n - 4) (hl2 : l2.length = n - 2)
    (hd : d0.length = n) (hu2 : u2.length = n - 2) (hu4 : u4.length = n - 4)
    (hs : s.Len n (n - 2) (n - 4)) : wp Q (pdma2Init01 d0 u2 u4 rhs s) (fun s => s.Len n (n - 2) (n - 4)) := by
  obtain ⟨h1, h2, h3, h4, h5⟩ := hs
  unfold pdma2Init01
  wprunT
  plen

set_option maxHeartbeats 800000 in
theorem pdma2Init2_len (hn : 6 ≤ n) (hr : rhs.length = n) (hl4 : l4.length = n - 4) (hl2 : l2.length = n - 2)
    (hd : d0.length = n) (hu2 : u2.length = n - 2) (hu4 : u4.length = n - 4)
    (hs : s.Len n (n - 2) (n - 4)) : wp Q (pdma2Init2 l2 d0 u2 u4 rhs s) (fun s => s.Len n (n - 2) (n - 4)) := by
  obtain ⟨h1, h2, h3, h4, h5⟩ := hs
  unfold pdma2Init2
  wprunT
  refine wp_cut (fun be => be.length = n - 4) ?_ ?_
  · refine wp_ite_i (fun h => ?_) (fun h => ?_)
    · wprunT; simpa using h2
    · wprunT; exact h2
  intro be hbe
  wprunT
  plen

set_option maxHeartbeats 800000 in
theorem pdma2Init3_len (hn : 6 ≤ n) (hr : rhs.length = n) (hl4 : l4.length = n - 4) (hl2 : l2.length = n - 2)
    (hd : d0.length = n) (hu2 : u2.length = n - 2) (hu4 : u4.length = n - 4)
    (hs : s.Len n (n - 2) (n - 4)) : wp Q (pdma2Init3 l2 d0 u2 u4 rhs s) (fun s => s.Len n (n - 2) (n - 4)) := by
  obtain ⟨h1, h2, h3, h4, h5⟩ := hs
  unfold pdma2Init3
  wprunT
  refine wp_cut (fun be => be.length = n - 4) ?_ ?_
  · refine wp_ite_i (fun h => ?_) (fun h => ?_)
    · wprunT; simpa using h2
    · wprunT; exact h2
  intro be hbe
  wprunT
  plen

set_option maxHeartbeats 800000 in
theorem pdma2Row_len {i : ℕ} (hn : 6 ≤ n) (hr : rhs.length = n) (hl4 : l4.length = n - 4) (hl2 : l2.length = n - 2)
    (hd : d0.length = n) (hu2 : u2.length = n - 2) (hu4 : u4.length = n - 4) (hi : 4 ≤ i) (hi2 : i < n - 4)
    (hs : s.Len n (n - 2) (n - 4)) : wp Q (pdma2Row l4 l2 d0 u2 u4 rhs i s) (fun s => s.Len n (n - 2) (n - 4)) := by
  obtain ⟨h1, h2, h3, h4, h5⟩ := hs
  unfold pdma2Row
  wprunT
  plen

set_option maxHeartbeats 800000 in
theorem pdma2RowN4_len (hn : 6 ≤ n) (hr : rhs.length = n) (hl4 : l4.length = n - 4) (hl2 : l2.length = n - 2)
    (hd : d0.length = n) (hu2 : u2.length = n - 2) (hu4 : u4.length = n - 4)
    (hs : s.Len n (n - 2) (n - 4)) : wp Q (pdma2RowN4 l4 l2 d0 u2 rhs n s) (fun s => s.Len n (n - 2) (n - 4)) := by
  obtain ⟨h1, h2, h3, h4, h5⟩ := hs
  unfold pdma2RowN4
  refine wp_ite_i (fun h => ?_) (fun h => ?_)
  · wprunT
    plen
  · wprunT; exact ⟨h1, h2, h3, h4, h5⟩

set_option maxHeartbeats 800000 in
theorem pdma2RowN3_len (hn : 6 ≤ n) (hr : rhs.length = n) (hl4 : l4.length = n - 4) (hl2 : l2.length = n - 2)
    (hd : d0.length = n) (hu2 : u2.length = n - 2) (hu4 : u4.length = n - 4)
    (hs : s.Len n (n - 2) (n - 4)) : wp Q (pdma2RowN3 l4 l2 d0 u2 rhs n s) (fun s => s.Len n (n - 2) (n - 4)) := by
  obtain ⟨h1, h2, h3, h4, h5⟩ := hs
  unfold pdma2RowN3
  refine wp_ite_i (fun h => ?_) (fun h => ?_)
  · wprunT
    plen
  · wprunT; exact ⟨h1, h2, h3, h4, h5⟩

set_option maxHeartbeats 800000 in
theorem pdma2RowN2_len (hn : 6 ≤ n) (hr : rhs.length = n) (hl4 : l4.length = n - 4) (hl2 : l2.length = n - 2)
    (hd : d0.length = n) (hu2 : u2.length = n - 2) (hu4 : u4.length = n - 4)
    (hs : s.Len n (n - 2) (n - 4)) : wp Q (pdma2RowN2 l4 l2 d0 rhs n s) (fun s => s.Len n (n - 2) (n - 4)) := by
  obtain ⟨h1, h2, h3, h4, h5⟩ := hs
  unfold pdma2RowN2
  wprunT
  plen

set_option maxHeartbeats 800000 in
theorem pdma2RowN1_len (hn : 6 ≤ n) (hr : rhs.length = n) (hl4 : l4.length = n - 4) (hl2 : l2.length = n - 2)
    (hd : d0.length = n) (hu2 : u2.length = n - 2) (hu4 : u4.length = n - 4)
    (hs : s.Len n (n - 2) (n - 4)) : wp Q (pdma2RowN1 l4 l2 d0 rhs n s) (fun s => s.Len n (n - 2) (n - 4)) := by
  obtain ⟨h1, h2, h3, h4, h5⟩ := hs
  unfold pdma2RowN1
  wprunT
  plen

set_option maxHeartbeats 800000 in
theorem pdma_len (hn : 4 ≤ n) (hr : rhs.length = n) (hl2 : l2.length = n - 2) (hl1 : l1.length = n - 1)
    (hd : d0.length = n) (hu1 : u1.length = n - 1) (hu2 : u2.length = n - 2) :
    wp Q (pdma l2 l1 d0 u1 u2 rhs) (fun x => x.length = n) := by
  unfold pdma
  rw [hr]
  wprunT
  refine wp_cut _ (pdmaInit_len hn hr hl2 hl1 hd hu1 hu2 (by constructor <;> simp)) ?_
  intro s hs
  wprunT
  refine wp_forRange (fun _ s => s.Len n (n - 1) (n - 2)) hs
    (fun i s h hi hs => pdmaRow_len hn hr hl2 hl1 hd hu1 hu2 h hi hs) ?_
  intro s hs
  wprunT
  refine wp_cut _ (pdmaRowN2_len hn hr hl2 hl1 hd hu1 hu2 hs) ?_
  intro s hs
  wprunT
  refine wp_cut _ (pdmaRowN1_len hn hr hl2 hl1 hd hu1 hu2 hs) ?_
  rintro s ⟨h1, h2, h3, h4, h5⟩
  wprunT
  refine wp_forRev (fun _ x => x.length = n) (by simpa using hr) ?_ (fun _ h => h)
  intro i x _ hi hx
  wprunT; simpa using hx

set_option maxHeartbeats 800000 in
theorem pdma2_len (hn : 6 ≤ n) (hr : rhs.length = n) (hl4 : l4.length = n - 4) (hl2 : l2.length = n - 2)
    (hd : d0.length = n) (hu2 : u2.length = n - 2) (hu4 : u4.length = n - 4) :
    wp Q (pdma2 l4 l2 d0 u2 u4 rhs) (fun x => x.length = n) := by
  unfold pdma2
  rw [hr]
  wprunT
  refine wp_cut _ (pdma2Init01_len hn hr hl4 hl2 hd hu2 hu4 (by constructor <;> simp)) ?_
  intro s hs
  wprunT
  refine wp_cut _ (pdma2Init2_len hn hr hl4 hl2 hd hu2 hu4 hs) ?_
  intro s hs
  wprunT
  refine wp_cut _ (pdma2Init3_len hn hr hl4 hl2 hd hu2 hu4 hs) ?_
  intro s hs
  wprunT
  refine wp_forRange (fun _ s => s.Len n (n - 2) (n - 4)) hs
    (fun i s h hi hs => pdma2Row_len hn hr hl4 hl2 hd hu2 hu4 h hi hs) ?_
  intro s hs
  wprunT
  refine wp_cut _ (pdma2RowN4_len hn hr hl4 hl2 hd hu2 hu4 hs) ?_
  intro s hs
  wprunT
  refine wp_cut _ (pdma2RowN3_len hn hr hl4 hl2 hd hu2 hu4 hs) ?_
  intro s hs
  wprunT
  refine wp_cut _ (pdma2RowN2_len hn hr hl4 hl2 hd hu2 hu4 hs) ?_
  intro s hs
  wprunT
  refine wp_cut _ (pdma2RowN1_len hn hr hl4 hl2 hd hu2 hu4 hs) ?_
  rintro s ⟨h1, h2, h3, h4, h5⟩
  wprunT
  refine wp_forRev (fun _ x => x.length = n) (by simpa using hr) ?_ (fun _ h => h)
  intro i x _ hi hx
  wprunT; simpa using hx

end
end Verif
