/-
Core execution model: results of running Rust code, slices, loops, and the
weakest-precondition calculus used in the proofs.  Nothing here models a particular
source file; these are the primitives in which the model files are written.
-/
import Mathlib.Algebra.Module.Basic
import Mathlib.Algebra.Field.Basic
import Mathlib.Tactic.Common

namespace Verif

/-- The ways in which a run can go wrong. -/
inductive Err where
  /-- `assert!`, bounds-checked index, `todo!`, `unwrap` of `None`, debug-build overflow. -/
  | panic
  /-- out-of-range `get_unchecked` (undefined behaviour). -/
  | ub
  /-- division by zero (Rust floats would continue with inf/NaN). -/
  | div0
  deriving DecidableEq, Repr

/-- Result of a run. -/
inductive Res (α : Type _) where
  | ok (a : α)
  | err (e : Err)
  deriving DecidableEq, Repr

namespace Res
variable {α β : Type _}

/-- Sequencing: an error ends the run. -/
protected def bind (r : Res α) (f : α → Res β) : Res β :=
  match r with
  | ok a => f a
  | err e => err e

instance : Monad Res where
  pure := ok
  bind := Res.bind

@[simp] theorem pure_eq (a : α) : (pure a : Res α) = ok a := rfl
@[simp] theorem bind_ok (a : α) (f : α → Res β) : (ok a >>= f) = f a := rfl
@[simp] theorem bind_err (e : Err) (f : α → Res β) : ((err e : Res α) >>= f) = err e := rfl

/-- Weakest precondition: `r` returns a value satisfying `P`, or fails with an error
allowed by `Q`. -/
def wp (Q : Err → Prop) (r : Res α) (P : α → Prop) : Prop :=
  match r with
  | ok a => P a
  | err e => Q e

variable {Q : Err → Prop}

@[simp] theorem wp_ok (a : α) (P : α → Prop) : wp Q (ok a) P ↔ P a := Iff.rfl
@[simp] theorem wp_pure (a : α) (P : α → Prop) : wp Q (pure a) P ↔ P a := Iff.rfl
@[simp] theorem wp_err (e : Err) (P : α → Prop) : wp Q (err e : Res α) P ↔ Q e := Iff.rfl
@[simp] theorem wp_bind (r : Res α) (f : α → Res β) (P : β → Prop) :
    wp Q (r >>= f) P ↔ wp Q r (fun a => wp Q (f a) P) := by
  cases r <;> rfl

theorem wp_mono {r : Res α} {P P' : α → Prop} (h : wp Q r P) (hp : ∀ a, P a → P' a) :
    wp Q r P' := by
  cases r with
  | ok a => exact hp a h
  | err e => exact h

theorem wp_err_mono {Q' : Err → Prop} {r : Res α} {P : α → Prop} (h : wp Q r P)
    (hq : ∀ e, Q e → Q' e) : wp Q' r P := by
  cases r with
  | ok a => exact h
  | err e => exact hq e h

/-- With no error allowed, `wp` says: the run succeeds with a value satisfying `P`. -/
theorem wp_total {r : Res α} {P : α → Prop} :
    wp (fun _ => False) r P ↔ ∃ a, r = ok a ∧ P a := by
  cases r with
  | ok a => simp
  | err e => simp

/-- With only `div0` allowed. -/
theorem wp_div0 {r : Res α} {P : α → Prop} (h : wp (fun e => e = Err.div0) r P) :
    r = err .div0 ∨ ∃ a, r = ok a ∧ P a := by
  cases r with
  | ok a => exact Or.inr ⟨a, rfl, h⟩
  | err e => left; rw [show e = Err.div0 from h]

@[simp] theorem wp_ite (c : Prop) [Decidable c] (r s : Res α) (P : α → Prop) :
    wp Q (if c then r else s) P ↔ (c → wp Q r P) ∧ (¬ c → wp Q s P) := by
  split <;> simp_all

end Res

open Res

/-- `assert!(c)`. -/
def assertR (c : Prop) [Decidable c] : Res Unit := if c then ok () else err .panic

@[simp] theorem wp_assertR {Q : Err → Prop} (c : Prop) [Decidable c] (P : Unit → Prop) :
    wp Q (assertR c) P ↔ (c → P ()) ∧ (¬ c → Q .panic) := by
  unfold assertR; split <;> simp_all

/-- `usize` subtraction in a debug build: panics on underflow.  (In a release build it wraps
to a huge number; every use in the modelled code is an index, a loop bound or an allocation
size, so wrapping is a failure there too, but is not separately modelled.) -/
def usub (a b : ℕ) : Res ℕ := if b ≤ a then ok (a - b) else err .panic

@[inherit_doc] infixl:65 " -! " => usub

@[simp] theorem wp_usub {Q : Err → Prop} (a b : ℕ) (P : ℕ → Prop) :
    wp Q (a -! b) P ↔ (b ≤ a → P (a - b)) ∧ (¬ b ≤ a → Q .panic) := by
  unfold usub; split <;> simp_all

section Slices
variable {T : Type _}

/-- `*l.get_unchecked(i)`. -/
def rd (l : List T) (i : ℕ) : Res T :=
  match l[i]? with
  | some x => ok x
  | none => err .ub

/-- `*l.get_unchecked_mut(i) = x`. -/
def wr (l : List T) (i : ℕ) (x : T) : Res (List T) :=
  if i < l.length then ok (l.set i x) else err .ub

/-- `l[i]`. -/
def rdC (l : List T) (i : ℕ) : Res T :=
  match l[i]? with
  | some x => ok x
  | none => err .panic

/-- `l[i] = x`. -/
def wrC (l : List T) (i : ℕ) (x : T) : Res (List T) :=
  if i < l.length then ok (l.set i x) else err .panic

/-- Total accessor: entry `i`, `0` outside.  Used in specifications and, in the model, only inside
external operations (FFT, lane iteration) where the index is in range. -/
def nth [Zero T] (l : List T) (i : ℕ) : T := l.getD i 0

variable [Zero T] {Q : Err → Prop}

theorem nth_eq_getElem (l : List T) (i : ℕ) (h : i < l.length) : nth l i = l[i] := by
  simp [nth, List.getD_eq_getElem?_getD, List.getElem?_eq_getElem h]

theorem nth_of_le (l : List T) (i : ℕ) (h : l.length ≤ i) : nth l i = 0 := by
  simp [nth, List.getD_eq_getElem?_getD, List.getElem?_eq_none h]

@[simp] theorem wp_rd (l : List T) (i : ℕ) (P : T → Prop) :
    wp Q (rd l i) P ↔ (i < l.length → P (nth l i)) ∧ (¬ i < l.length → Q .ub) := by
  unfold rd
  by_cases h : i < l.length
  · simp [h, nth_eq_getElem l i h]
  · simp [h]

@[simp] theorem wp_rdC (l : List T) (i : ℕ) (P : T → Prop) :
    wp Q (rdC l i) P ↔ (i < l.length → P (nth l i)) ∧ (¬ i < l.length → Q .panic) := by
  unfold rdC
  by_cases h : i < l.length
  · simp [h, nth_eq_getElem l i h]
  · simp [h]

omit [Zero T] in
@[simp] theorem wp_wr (l : List T) (i : ℕ) (x : T) (P : List T → Prop) :
    wp Q (wr l i x) P ↔ (i < l.length → P (l.set i x)) ∧ (¬ i < l.length → Q .ub) := by
  unfold wr; split <;> simp_all

omit [Zero T] in
@[simp] theorem wp_wrC (l : List T) (i : ℕ) (x : T) (P : List T → Prop) :
    wp Q (wrC l i x) P ↔ (i < l.length → P (l.set i x)) ∧ (¬ i < l.length → Q .panic) := by
  unfold wrC; split <;> simp_all

theorem nth_set (l : List T) (i j : ℕ) (x : T) :
    nth (l.set i x) j = if i = j ∧ i < l.length then x else nth l j := by
  unfold nth
  simp only [List.getD_eq_getElem?_getD, List.getElem?_set]
  by_cases h : i = j
  · subst h
    by_cases h2 : i < l.length
    · simp [h2]
    · simp [h2]
  · simp [h]

@[simp] theorem nth_set_self (l : List T) (i : ℕ) (x : T) (h : i < l.length) :
    nth (l.set i x) i = x := by simp [nth_set, h]

theorem nth_set_ne (l : List T) (i j : ℕ) (x : T) (h : i ≠ j) :
    nth (l.set i x) j = nth l j := by simp [nth_set, h]

@[simp] theorem nth_replicate (n i : ℕ) : nth (List.replicate n (0 : T)) i = 0 := by
  unfold nth
  simp [List.getD_eq_getElem?_getD, List.getElem?_replicate]
  split <;> simp

theorem nth_replicate_of_lt (n i : ℕ) (x : T) (h : i < n) : nth (List.replicate n x) i = x := by
  rw [nth_eq_getElem _ _ (by simpa)]; simp

@[simp] theorem nth_nil (i : ℕ) : nth ([] : List T) i = 0 := by simp [nth]

@[simp] theorem nth_cons_zero (x : T) (l : List T) : nth (x :: l) 0 = x := rfl
@[simp] theorem nth_cons_succ (x : T) (l : List T) (i : ℕ) :
    nth (x :: l) (i + 1) = nth l i := rfl

/-- Lists of equal length with equal entries are equal. -/
theorem ext_nth {l l' : List T} (hl : l.length = l'.length)
    (h : ∀ i < l.length, nth l i = nth l' i) : l = l' := by
  apply List.ext_getElem hl
  intro i h1 h2
  have := h i h1
  rwa [nth_eq_getElem _ _ h1, nth_eq_getElem _ _ h2] at this

@[simp] theorem nth_map_range (f : ℕ → T) (n i : ℕ) (h : i < n) :
    nth ((List.range n).map f) i = f i := by
  rw [nth_eq_getElem _ _ (by simpa)]; simp

theorem nth_map {S : Type _} [Zero S] (f : S → T) (l : List S) (i : ℕ) (h : i < l.length) :
    nth (l.map f) i = f (nth l i) := by
  rw [nth_eq_getElem _ _ (by simpa), nth_eq_getElem _ _ h]; simp

end Slices

section Div

/-- Division of data of type `T` by numbers of type `K`.  The kernels of the code are modelled over
arbitrary operations `+`, `-`, `*`, `/` (only the operation classes, no laws): instantiated with
a field they are exact arithmetic, in which a division by zero ends the run (`exactDiv`);
instantiated with floating point numbers a division always returns. -/
class DivBy (K T : Type _) where
  /-- `x / a` for a datum `x` (real or complex) and a number `a`. -/
  divR : T → K → Res T

export DivBy (divR)

variable {K T : Type _} [Field K] [DecidableEq K] [AddCommGroup T] [Module K T]

/-- Exact division. -/
instance exactDiv : DivBy K T := ⟨fun x a => if a = 0 then err .div0 else ok (a⁻¹ • x)⟩

theorem divR_eq (x : T) (a : K) : divR x a = if a = 0 then err .div0 else ok (a⁻¹ • x) := rfl

@[simp] theorem wp_divR {Q : Err → Prop} (x : T) (a : K) (P : T → Prop) :
    wp Q (divR x a) P ↔ (a = 0 → Q .div0) ∧ (a ≠ 0 → P (a⁻¹ • x)) := by
  rw [divR_eq]; split <;> simp_all

end Div

section Loops
variable {σ : Type _}

/-- Run `f` for each index of a list, in order. -/
def forList {ι : Type _} (is : List ι) (f : ι → σ → Res σ) (s : σ) : Res σ :=
  match is with
  | [] => ok s
  | i :: is => f i s >>= forList is f

/-- `for i in a..b { .. }`. -/
def forRange (a b : ℕ) (f : ℕ → σ → Res σ) (s : σ) : Res σ :=
  forList (List.range' a (b - a)) f s

/-- `for i in (a..b).rev() { .. }`. -/
def forRev (a b : ℕ) (f : ℕ → σ → Res σ) (s : σ) : Res σ :=
  forList (List.range' a (b - a)).reverse f s

variable {Q : Err → Prop}

theorem wp_forList_append {ι : Type _} (is js : List ι) (f : ι → σ → Res σ) (s : σ) :
    forList (is ++ js) f s = (forList is f s >>= forList js f) := by
  induction is generalizing s with
  | nil => simp [forList]
  | cons i is ih =>
    simp only [List.cons_append, forList]
    cases f i s with
    | ok a => simp [ih]
    | err e => simp

theorem wp_forRange_aux (k a : ℕ) (f : ℕ → σ → Res σ) (I : ℕ → σ → Prop) (s : σ)
    (h0 : I a s)
    (hstep : ∀ i s, a ≤ i → i < a + k → I i s → wp Q (f i s) (I (i + 1))) :
    wp Q (forList (List.range' a k) f s) (I (a + k)) := by
  induction k generalizing a s with
  | zero => simpa [forList] using h0
  | succ k ih =>
    simp only [List.range'_succ, forList, wp_bind]
    refine wp_mono (hstep a s le_rfl (by omega) h0) ?_
    intro s' hs'
    have := ih (a + 1) s' hs' (fun i s h1 h2 => hstep i s (by omega) (by omega))
    rwa [show a + 1 + k = a + (k + 1) by omega] at this

/-- Loop rule for an ascending range. -/
theorem wp_forRange {a b : ℕ} {f : ℕ → σ → Res σ} {s : σ} {P : σ → Prop}
    (I : ℕ → σ → Prop) (h0 : I a s)
    (hstep : ∀ i s, a ≤ i → i < b → I i s → wp Q (f i s) (I (i + 1)))
    (hend : ∀ s, I (max a b) s → P s) :
    wp Q (forRange a b f s) P := by
  unfold forRange
  refine wp_mono (wp_forRange_aux (b - a) a f I s h0
    (fun i s h1 h2 => hstep i s h1 (by omega))) ?_
  intro s hs
  apply hend
  rwa [show max a b = a + (b - a) by omega]

theorem wp_forRev_aux (k a : ℕ) (f : ℕ → σ → Res σ) (I : ℕ → σ → Prop) (s : σ)
    (h0 : I (a + k) s)
    (hstep : ∀ i s, a ≤ i → i < a + k → I (i + 1) s → wp Q (f i s) (I i)) :
    wp Q (forList (List.range' a k).reverse f s) (I a) := by
  induction k generalizing s with
  | zero => simpa [forList] using h0
  | succ k ih =>
    rw [List.range'_concat, List.reverse_append]
    simp only [List.reverse_cons, List.reverse_nil, List.nil_append, List.cons_append,
      forList, wp_bind, Nat.one_mul]
    refine wp_mono (hstep (a + k) s (by omega) (by omega) h0) ?_
    intro s' hs'
    exact ih s' hs' (fun i s h1 h2 => hstep i s h1 (by omega))

/-- Loop rule for a descending range: the invariant at `i+1` holds before index `i` is
processed, the invariant at `i` afterwards. -/
theorem wp_forRev {a b : ℕ} {f : ℕ → σ → Res σ} {s : σ} {P : σ → Prop}
    (I : ℕ → σ → Prop) (h0 : I (max a b) s)
    (hstep : ∀ i s, a ≤ i → i < b → I (i + 1) s → wp Q (f i s) (I i))
    (hend : ∀ s, I a s → P s) :
    wp Q (forRev a b f s) P := by
  unfold forRev
  refine wp_mono (wp_forRev_aux (b - a) a f I s ?_
    (fun i s h1 h2 => hstep i s h1 (by omega))) hend
  rwa [show a + (b - a) = max a b by omega]

end Loops

end Verif
