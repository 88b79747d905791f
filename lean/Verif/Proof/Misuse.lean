/-
Programs that never return, and calls with arguments that do not fit.
-/
import Verif.Spec.Misuse
import Verif.Proof.SpaceMpi
import Verif.Props.Axis

namespace Verif
open Res Spec Mpi

section
variable {T α β : Type}

/-- Whatever the rank receives: if the program returns, it returns a value with `Q`. -/
inductive Post (Q : α → Prop) : Prog T α → Prop
  | ret {r : Res α} (h : ∀ a, r = ok a → Q a) : Post Q (.ret r)
  | coll {c : Coll T} {k} (h : ∀ b, Post Q (k b)) : Post Q (.coll c k)

theorem Post.bind {R : α → Prop} {Q : β → Prop} {p : Prog T α} {f : α → Prog T β} (hp : Post R p)
    (hf : ∀ a, R a → Post Q (f a)) : Post Q (p >>= f) := by
  induction hp with
  | ret h =>
    rename_i r
    cases r with
    | ok a => exact hf a (h a rfl)
    | err e => exact .ret (fun a h => by cases h)
  | coll _ ih => exact .coll ih

theorem Post.any (p : Prog T α) : Post (fun _ => True) p := by
  induction p with
  | ret r => exact .ret (fun _ _ => trivial)
  | coll c k ih => exact .coll ih

theorem Post.res {Q : α → Prop} {x : Res α} (h : ∀ a, x = ok a → Q a) : Post Q (liftM x : Prog T α) := .ret h

theorem Post.steps {Q : α → Prop} {N r : ℕ} {ps : ℕ → Prog T α} (h : Post Q (ps r)) {n w}
    (hs : Steps N n (World.init ps) w) :
    (∃ p, w.loc r = .idle p ∧ Post Q p) ∨ ∃ c buf got k, w.loc r = .inside c buf got k ∧ ∀ b, Post Q (k b) := by
  generalize hw : World.init ps = w0 at hs
  induction hs with
  | refl w => subst hw; exact .inl ⟨_, rfl, h⟩
  | tail _ st ih =>
    have ih := ih hw
    cases st with
    | enter r' hr' hl =>
      by_cases e : r = r'
      · subst e
        rcases ih with ⟨p, h1, h2⟩ | ⟨c, b, g, k, h1, -⟩
        · rw [hl] at h1
          injection h1 with h1
          subst h1
          cases h2 with
          | coll h2 => exact .inr ⟨_, _, _, _, Function.update_self .., h2⟩
        · rw [hl] at h1; cases h1
      · simpa only [Function.update_of_ne e] using ih
    | recv r' s hr' hs' hl =>
      by_cases e : r = r'
      · subst e
        rcases ih with ⟨p, h1, h2⟩ | ⟨c, b, g, k, h1, h2⟩
        · rw [hl] at h1; cases h1
        · rw [hl] at h1
          injection h1 with e1 e2 e3 e4
          subst e4
          exact .inr ⟨_, _, _, _, Function.update_self .., h2⟩
      · simpa only [Function.update_of_ne e] using ih
    | leave r' hr' hl =>
      by_cases e : r = r'
      · subst e
        rcases ih with ⟨p, h1, h2⟩ | ⟨c, b, g, k, h1, h2⟩
        · rw [hl] at h1; cases h1
        · rw [hl] at h1
          injection h1 with e1 e2 e3 e4
          subst e4
          exact .inl ⟨_, Function.update_self .., h2 _⟩
      · simpa only [Function.update_of_ne e] using ih

theorem Post.never {N r : ℕ} {ps : ℕ → Prog T α} (h : Post (fun _ => False) (ps r)) : NeverReturns N ps r := by
  intro n w hs a ha
  rcases h.steps hs with ⟨p, h1, h2⟩ | ⟨c, b, g, k, h1, -⟩
  · rw [ha] at h1
    injection h1 with h1
    subst h1
    cases h2 with
    | ret h2 => exact h2 a rfl
  · rw [ha] at h1; cases h1

theorem panicsFirst {N r : ℕ} {ps : ℕ → Prog T α} (h : PanicsAtOnce (ps r)) : PanicsFirst N ps r := by
  intro n w hs
  generalize hw : World.init ps = w0 at hs
  induction hs with
  | refl w => subst hw; exact ⟨congrArg _ h, fun _ => rfl⟩
  | tail _ st ih =>
    obtain ⟨i1, i2⟩ := ih hw
    cases st with
    | enter r' hr' hl =>
      have e : r ≠ r' := by rintro rfl; rw [i1] at hl; cases hl
      exact ⟨by simpa only [Function.update_of_ne e] using i1, fun s => by simp only [if_neg e]; exact i2 s⟩
    | recv r' s hr' hs' hl hg hn =>
      have e : r ≠ r' := by rintro rfl; rw [i1] at hl; cases hl
      refine ⟨by simpa only [Function.update_of_ne e] using i1, fun x => ?_⟩
      have e2 : r ≠ s := by rintro rfl; rw [i2] at hn; cases hn
      simp only [if_neg (fun h : r = s ∧ _ => e2 h.1)]
      exact i2 x
    | leave r' hr' hl =>
      have e : r ≠ r' := by rintro rfl; rw [i1] at hl; cases hl
      exact ⟨by simpa only [Function.update_of_ne e] using i1, i2⟩

end

theorem checkShape_panic {T : Type} {a : Arr T} {s : List ℕ} (h : a.shape ≠ s) : checkShape a s = err .panic :=
  assertR_panic h

theorem checkShape_or {T : Type} (a : Arr T) (s : List ℕ) : checkShape a s = ok () ∨ checkShape a s = err .panic := by
  unfold checkShape assertR
  split
  · exact .inl rfl
  · exact .inr rfl

/-! ### shapes -/

section
variable {T : Type}

theorem anyB {α β : Type} {r : Res α} {f : α → Res β} {P : β → Prop} (h : ∀ a, wp (fun _ => True) (f a) P) :
    wp (fun _ => True) (r >>= f) P := by
  cases r with
  | ok a => exact h a
  | err e => trivial

theorem of_any {α : Type} {r : Res α} {P : α → Prop} (h : wp (fun _ => True) r P) (a : α) (ha : r = ok a) : P a := by
  subst ha; exact h

theorem wr2_shape (a : Arr T) (i j : ℕ) (x : T) : wp (fun _ => True) (wr2 a i j x) (fun r => r.shape = a.shape) :=
  anyB fun _ => anyB fun _ => anyB fun _ => anyB fun _ => rfl

variable [Zero T]

theorem mergeYx_shape (o : Mode) (d : Decomp2d) (data : Arr T) (buf : List T) :
    wp (fun _ => True) (d.mergeYx o data buf) (fun r => r.shape = data.shape) := by
  unfold Decomp2d.mergeYx
  refine wp_bind_i (wp_mono (P := fun s : Arr T × ℕ => s.1.shape = data.shape) ?_ (fun s hs => hs))
  refine wp_forRange (fun _ s => s.1.shape = data.shape) rfl (fun p s _ _ hs => ?_) (fun s hs => hs)
  refine anyB fun _ => anyB fun _ => anyB fun _ => anyB fun _ => anyB fun _ => ?_
  refine wp_forRange (fun _ s => s.1.shape = data.shape) hs (fun j s _ _ hs => ?_) (fun s hs => hs)
  refine wp_forRange (fun _ s => s.1.shape = data.shape) hs (fun i s _ _ hs => ?_) (fun s hs => hs)
  refine anyB fun _ => wp_bind_i (wp_mono (wr2_shape _ _ _ _) fun r hr => anyB fun _ => ?_)
  exact hr.trans hs

theorem mergeXy_shape (o : Mode) (d : Decomp2d) (data : Arr T) (buf : List T) :
    wp (fun _ => True) (d.mergeXy o data buf) (fun r => r.shape = data.shape) := by
  unfold Decomp2d.mergeXy
  refine wp_bind_i (wp_mono (P := fun s : Arr T × ℕ => s.1.shape = data.shape) ?_ (fun s hs => hs))
  refine wp_forRange (fun _ s => s.1.shape = data.shape) rfl (fun p s _ _ hs => ?_) (fun s hs => hs)
  refine anyB fun _ => anyB fun _ => anyB fun _ => anyB fun _ => anyB fun _ => ?_
  refine wp_forRange (fun _ s => s.1.shape = data.shape) hs (fun j s _ _ hs => ?_) (fun s hs => hs)
  refine wp_forRange (fun _ s => s.1.shape = data.shape) hs (fun i s _ _ hs => ?_) (fun s hs => hs)
  refine anyB fun _ => wp_bind_i (wp_mono (wr2_shape _ _ _ _) fun r hr => anyB fun _ => ?_)
  exact hr.trans hs

theorem transposeXToY_shape (o : Mode) (d : Decomp2d) (snd rcv : Arr T) :
    Post (fun r => r.shape = rcv.shape ∧ snd.shape = d.xPencil.sz ∧ rcv.shape = d.yPencil.sz) (d.transposeXToY o snd rcv) := by
  by_cases h1 : snd.shape = d.xPencil.sz
  · by_cases h2 : rcv.shape = d.yPencil.sz
    · unfold Decomp2d.transposeXToY
      iterate 9 refine Post.bind (Post.any _) (fun _ _ => ?_)
      exact .ret fun r hr => ⟨of_any (mergeXy_shape _ _ _ _) r hr, h1, h2⟩
    · refine Post.bind (Post.any _) fun _ _ => Post.bind (R := fun _ => False) (Post.res fun _ h' => ?_) fun _ h' => h'.elim
      rw [checkShape_panic h2] at h'; cases h'
  · refine Post.bind (R := fun _ => False) (Post.res fun _ h' => ?_) fun _ h' => h'.elim
    rw [checkShape_panic h1] at h'; cases h'

theorem transposeYToX_shape (o : Mode) (d : Decomp2d) (snd rcv : Arr T) :
    Post (fun r => r.shape = rcv.shape ∧ snd.shape = d.yPencil.sz ∧ rcv.shape = d.xPencil.sz) (d.transposeYToX o snd rcv) := by
  by_cases h1 : snd.shape = d.yPencil.sz
  · by_cases h2 : rcv.shape = d.xPencil.sz
    · unfold Decomp2d.transposeYToX
      iterate 9 refine Post.bind (Post.any _) (fun _ _ => ?_)
      exact .ret fun r hr => ⟨of_any (mergeYx_shape _ _ _ _) r hr, h1, h2⟩
    · refine Post.bind (Post.any _) fun _ _ => Post.bind (R := fun _ => False) (Post.res fun _ h' => ?_) fun _ h' => h'.elim
      rw [checkShape_panic h2] at h'; cases h'
  · refine Post.bind (R := fun _ => False) (Post.res fun _ h' => ?_) fun _ h' => h'.elim
    rw [checkShape_panic h1] at h'; cases h'

end

end Verif

namespace Verif
open Res Spec Mpi

/-- the first pass over an array that does not fit: it panics, or returns an array that does not fit either -/
theorem first_pass {S T : Type} [Zero S] [Zero T] {f : List S → List T → Res (List T)} {l1 l2 : ℕ} {g : List S → List T}
    (hf : Computes f l1 l2 g) {a : Arr S} (hw : a.WF) {s : List ℕ} {ax : ℕ} (hax : ax < s.length)
    (hs : s.getD ax 0 = l1) (ha : ¬ Good a s) :
    (do let out ← arrayResizedAxis T a l2 ax
        applyAlongAxis (serialOrder out ax) f l1 l2 a out ax) = err .panic ∨
    ∃ r, (do let out ← arrayResizedAxis T a l2 ax
             applyAlongAxis (serialOrder out ax) f l1 l2 a out ax) = ok r ∧ r.shape ≠ s.set ax l2 := by
  by_cases h : a.std = true ∧ ax < a.shape.length ∧ a.shape.getD ax 0 = l1
  · refine .inr ⟨_, alloc_good hf ⟨hw, h.1, rfl⟩ h.2.1 h.2.2, fun e => ha ⟨hw, h.1, ?_⟩⟩
    change a.shape.set ax l2 = s.set ax l2 at e
    have hl : a.shape.length = s.length := by simpa using congrArg List.length e
    refine List.ext_getElem hl fun i h1 h2 => ?_
    by_cases hi : i = ax
    · subst hi
      have := h.2.2.trans hs.symm
      rwa [List.getD_eq_getElem?_getD, List.getD_eq_getElem?_getD, List.getElem?_eq_getElem h1, List.getElem?_eq_getElem h2] at this
    · have := congrArg (fun l => l[i]?) e
      simpa [List.getElem?_set, Ne.symm hi, h1, h2] using this
  · exact .inl (Props.alloc_rejects (fun a out ax => applyAlongAxis (serialOrder out ax) f l1 l2 a out ax)
      (Props.rejects_of _ _ _) a ax h)

/-- the last pass into an array that does not fit panics -/
theorem last_pass {S T : Type} [Zero S] [Zero T] {M : Method S T} {l1 l2 : ℕ} (hM : Rejects M l1 l2) {a : Arr S}
    {out : Arr T} {s : List ℕ} {ax : ℕ} (ha : a.shape = s) (hax : ax < s.length) (hw : out.WF)
    (ho : ¬ Good out (s.set ax l2)) : M a out ax = err .panic := by
  refine hM _ _ _ fun hf => ho ⟨hw, hf.2.1, ?_⟩
  obtain ⟨-, -, h1, h2, -, h3, h4⟩ := hf
  rw [ha] at h1 h4
  have hl : out.shape.length = s.length := by
    have := congrArg List.length h4
    rw [List.length_eraseIdx_of_lt h1, List.length_eraseIdx_of_lt h2] at this
    omega
  refine List.ext_getElem (by rw [List.length_set, hl]) fun i g1 g2 => ?_
  rw [List.getElem_set]
  split_ifs with hi
  · subst hi; rw [← h3, List.getD_eq_getElem?_getD, List.getElem?_eq_getElem g1]; rfl
  · rcases Nat.lt_or_gt_of_ne hi with hi | hi
    · obtain ⟨j, rfl⟩ : ∃ j, i = j + 1 := ⟨i - 1, by omega⟩
      have := congrArg (fun l => l[j]?) h4
      simp only [List.getElem?_eraseIdx, if_neg (show ¬ j < ax by omega)] at this
      rw [List.getElem?_eq_getElem g1, List.getElem?_eq_getElem (by rw [← hl]; exact g1)] at this
      exact (Option.some.inj this).symm
    · have := congrArg (fun l => l[i]?) h4
      simp only [List.getElem?_eraseIdx, if_pos hi] at this
      rw [List.getElem?_eq_getElem g1, List.getElem?_eq_getElem (by rw [← hl]; exact g1)] at this
      exact (Option.some.inj this).symm

end Verif
