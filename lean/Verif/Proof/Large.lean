/- Communication counts on large arrays: wrap-around and overflow. -/
import Verif.Proof.Decomp
import Verif.Spec.Large

namespace Verif
open Res Spec Mpi

theorem toI32_is (d : ℕ) : IsI32Of (toI32 d) d := by
  unfold IsI32Of InI32 toI32
  omega

theorem Spec.IsI32Of.trans {z x y : ℤ} (h : IsI32Of z x) (h' : (2 ^ 32 : ℤ) ∣ x - y) : IsI32Of z y := by
  refine ⟨h.1, ?_⟩
  have := dvd_add h.2 h'
  rwa [sub_add_sub_cancel] at this

theorem i32Add_release (a b : ℤ) : ∃ z, Mode.release.i32Add a b = ok z ∧ IsI32Of z (a + b) := by
  unfold Mode.i32Add
  split
  · exact ⟨_, rfl, by unfold IsI32Of InI32; omega⟩
  · exact ⟨_, rfl, by unfold IsI32Of InI32; omega⟩

theorem mul_release (a b : ℕ) : ∃ z, Mode.release.mul a b = ok z ∧ (2 ^ 64 : ℤ) ∣ z - a * b := by
  unfold Mode.mul
  split
  · exact ⟨_, rfl, by push_cast; simp⟩
  · refine ⟨_, rfl, ?_⟩
    have h := Nat.div_add_mod (a * b) usizeW
    refine ⟨-((a * b / usizeW : ℕ) : ℤ), ?_⟩
    have h' : ((usizeW * (a * b / usizeW) + a * b % usizeW : ℕ) : ℤ) = (a * b : ℕ) := by rw [h]
    push_cast at h' ⊢
    linarith

theorem prod_release_aux (l : List ℕ) (a x : ℕ) (h : (2 ^ 64 : ℤ) ∣ (x : ℤ) - a) :
    ∃ z, l.foldl (fun acc b => acc >>= fun x => Mode.release.mul x b) (ok x) = ok z ∧
      (2 ^ 64 : ℤ) ∣ (z : ℤ) - (a * l.prod : ℕ) := by
  induction l generalizing a x with
  | nil => exact ⟨x, rfl, by simpa using h⟩
  | cons b l ih =>
    obtain ⟨z, h1, h2⟩ := mul_release x b
    obtain ⟨w, h3, h4⟩ := ih (a * b) z (by
      have h5 : (2 ^ 64 : ℤ) ∣ ((x : ℤ) - a) * b := h.mul_right _
      have := dvd_add h2 h5
      push_cast
      ring_nf at this ⊢
      exact this)
    refine ⟨w, ?_, ?_⟩
    · rw [List.foldl_cons, bind_ok, h1, h3]
    · rw [List.prod_cons, ← mul_assoc]; exact h4

theorem prod_release (l : List ℕ) :
    ∃ z, Mode.release.prod l = ok z ∧ (2 ^ 64 : ℤ) ∣ (z : ℤ) - (l.prod : ℕ) := by
  cases l with
  | nil => exact ⟨1, rfl, by simp⟩
  | cons a l =>
    obtain ⟨z, h1, h2⟩ := prod_release_aux l a a (by simp)
    exact ⟨z, h1, by rw [List.prod_cons]; exact h2⟩

/-- element by element -/
theorem mapR_rel {S T : Type} {f : S → Res T} {R : T → S → Prop} (l : List S)
    (h : ∀ x ∈ l, ∃ y, f x = ok y ∧ R y x) :
    ∃ ys, mapR f l = ok ys ∧ List.Forall₂ R ys l := by
  induction l with
  | nil => exact ⟨[], rfl, .nil⟩
  | cons x l ih =>
    obtain ⟨y, h1, h2⟩ := h x (by simp)
    obtain ⟨ys, h3, h4⟩ := ih (fun z hz => h z (by simp [hz]))
    exact ⟨y :: ys, by unfold mapR; rw [h1, bind_ok, h3]; rfl, .cons h2 h4⟩

/-- element by element, until something fails -/
theorem mapR_or {S T : Type} {f : S → Res T} {R : T → S → Prop} {C : S → Prop} (l : List S)
    (h : ∀ x ∈ l, (C x ∧ ∃ y, f x = ok y ∧ R y x) ∨ (¬ C x ∧ f x = err .panic)) :
    ((∀ x ∈ l, C x) ∧ ∃ ys, mapR f l = ok ys ∧ List.Forall₂ R ys l) ∨
      (¬ (∀ x ∈ l, C x) ∧ mapR f l = err .panic) := by
  induction l with
  | nil => exact .inl ⟨by simp, [], rfl, .nil⟩
  | cons x l ih =>
    rcases h x (by simp) with ⟨c, y, h1, h2⟩ | ⟨c, h1⟩
    · rcases ih (fun z hz => h z (by simp [hz])) with ⟨c', ys, h3, h4⟩ | ⟨c', h3⟩
      · refine .inl ⟨?_, y :: ys, by unfold mapR; rw [h1, bind_ok, h3]; rfl, .cons h2 h4⟩
        intro z hz
        rcases List.mem_cons.1 hz with rfl | hz
        · exact c
        · exact c' z hz
      · exact .inr ⟨fun hh => c' (fun z hz => hh z (by simp [hz])),
          by unfold mapR; rw [h1, bind_ok, h3]; rfl⟩
    · exact .inr ⟨fun hh => c (hh x (by simp)), by unfold mapR; rw [h1]; rfl⟩

/-- in debug mode the product is exact, or the multiplication panics -/
theorem prod_debug_aux (l : List ℕ) (a : ℕ) (ha : a < usizeW) :
    ((∀ k, a * (l.take k).prod < usizeW) ∧
        l.foldl (fun acc b => acc >>= fun x => Mode.debug.mul x b) (ok a) = ok (a * l.prod)) ∨
      (¬ (∀ k, a * (l.take k).prod < usizeW) ∧
        l.foldl (fun acc b => acc >>= fun x => Mode.debug.mul x b) (ok a) = err .panic) := by
  induction l generalizing a with
  | nil => exact .inl ⟨fun k => by simpa using ha, by simp⟩
  | cons b l ih =>
    by_cases h : a * b < usizeW
    · have e : Mode.debug.mul a b = ok (a * b) := Mode.mul_ok _ h
      rcases ih (a * b) h with ⟨h1, h2⟩ | ⟨h1, h2⟩
      · refine .inl ⟨fun k => ?_, by rw [List.foldl_cons, bind_ok, e, h2, List.prod_cons, mul_assoc]⟩
        cases k with
        | zero => simpa using ha
        | succ k => rw [List.take_succ_cons, List.prod_cons, ← mul_assoc]; exact h1 k
      · refine .inr ⟨fun h3 => h1 (fun k => ?_), by rw [List.foldl_cons, bind_ok, e, h2]⟩
        have := h3 (k + 1)
        rwa [List.take_succ_cons, List.prod_cons, ← mul_assoc] at this
    · refine .inr ⟨fun h3 => h ?_, ?_⟩
      · have := h3 1
        simpa using this
      · have e : Mode.debug.mul a b = err .panic := by unfold Mode.mul; rw [if_neg h]
        rw [List.foldl_cons, bind_ok, e]
        clear ih h ha e
        induction l with
        | nil => rfl
        | cons c l ih => rw [List.foldl_cons]; exact ih

theorem prod_debug (l : List ℕ) (hl : ∀ x ∈ l, x < usizeW) :
    ((∀ k, (l.take k).prod < usizeW) ∧ Mode.debug.prod l = ok l.prod) ∨
      (¬ (∀ k, (l.take k).prod < usizeW) ∧ Mode.debug.prod l = err .panic) := by
  cases l with
  | nil => exact .inl ⟨by simp [usizeW], rfl⟩
  | cons a l =>
    have e : (∀ k, ((a :: l).take k).prod < usizeW) ↔ ∀ k, a * (l.take k).prod < usizeW := by
      constructor
      · intro h k
        have := h (k + 1)
        rwa [List.take_succ_cons, List.prod_cons] at this
      · intro h k
        cases k with
        | zero => simp [usizeW]
        | succ k => rw [List.take_succ_cons, List.prod_cons]; exact h k
    rw [e, List.prod_cons]
    exact prod_debug_aux l a (hl a (by simp))

/-- displacements wrap around -/
theorem displs_release {cs xs : List ℤ} (h : List.Forall₂ (fun c x => (2 ^ 32 : ℤ) ∣ c - x) cs xs)
    (a x : ℤ) (ha : IsI32Of a x) :
    ∃ D, Dist.displs .release a cs = ok D ∧ D.length = cs.length ∧
      ∀ k < cs.length, IsI32Of (nth D k) (x + (xs.take k).sum) := by
  induction h generalizing a x with
  | nil => exact ⟨[], rfl, rfl, by simp⟩
  | @cons c y cs ys h0 _ ih =>
    obtain ⟨z, h1, h2⟩ := i32Add_release a c
    obtain ⟨D, h3, h4, h5⟩ := ih z (x + y) (Spec.IsI32Of.trans h2 (by
        have := dvd_add ha.2 h0
        ring_nf at this ⊢
        exact this))
    refine ⟨a :: D, ?_, by simp [h4], ?_⟩
    · unfold Dist.displs; rw [h1, bind_ok, h3]; rfl
    · intro k hk
      cases k with
      | zero => simpa using ha
      | succ k =>
        have := h5 k (by simpa using hk)
        rw [List.take_succ_cons, List.sum_cons, ← add_assoc]
        exact this

/-- displacements in debug mode -/
theorem displs_debug (cs : List ℤ) (a : ℤ) (ha : InI32 a) :
    (∀ k ≤ cs.length, InI32 (a + (cs.take k).sum)) ∧
      (∃ D, Dist.displs .debug a cs = ok D ∧ D.length = cs.length ∧
        ∀ k < cs.length, nth D k = a + (cs.take k).sum) ∨
    ¬ (∀ k ≤ cs.length, InI32 (a + (cs.take k).sum)) ∧ Dist.displs .debug a cs = err .panic := by
  induction cs generalizing a with
  | nil => exact .inl ⟨fun k _ => by simpa using ha, [], rfl, rfl, by simp⟩
  | cons c cs ih =>
    by_cases h : InI32 (a + c)
    · have e : Mode.debug.i32Add a c = ok (a + c) := i32Add_ok _ h.1 h.2
      rcases ih (a + c) h with ⟨h1, D, h2, h3, h4⟩ | ⟨h1, h2⟩
      · refine .inl ⟨?_, a :: D, ?_, by simp [h3], ?_⟩
        · intro k hk
          cases k with
          | zero => simpa using ha
          | succ k =>
            rw [List.take_succ_cons, List.sum_cons, ← add_assoc]
            exact h1 k (by simpa using hk)
        · unfold Dist.displs; rw [e, bind_ok, h2]; rfl
        · intro k hk
          cases k with
          | zero => simp
          | succ k =>
            rw [List.take_succ_cons, List.sum_cons, ← add_assoc]
            exact h4 k (by simpa using hk)
      · refine .inr ⟨fun h3 => h1 (fun k hk => ?_), ?_⟩
        · have := h3 (k + 1) (by simpa using hk)
          rwa [List.take_succ_cons, List.sum_cons, ← add_assoc] at this
        · unfold Dist.displs; rw [e, bind_ok, h2]; rfl
    · refine .inr ⟨fun h3 => h ?_, ?_⟩
      · have := h3 1 (by simp)
        simpa using this
      · unfold Dist.displs Mode.i32Add
        rw [if_neg (show ¬ (_ ∧ _) from h)]; rfl

theorem sum_cnt_list (n P m s : ℕ) :
    ((List.range s).map (fun s => ((cnt n P s * m : ℕ) : ℤ))).sum = ((off n P s * m : ℕ) : ℤ) := by
  induction s with
  | zero => rw [off_zero]; simp
  | succ s ih =>
    rw [List.range_succ, List.map_append, List.sum_append, ih, off_succ, Nat.add_mul, Nat.cast_add]
    simp only [List.map_cons, List.map_nil, List.sum_cons, List.sum_nil, add_zero]

theorem mapR_cnt_aux (n P m : ℕ) (f : List ℕ → Res ℤ) (l : List (List ℕ)) (a : ℕ)
    (h : ∀ s < l.length, ∀ x, l[s]? = some x →
      ∃ z, Mode.release.mul (cnt n P (a + s)) m = ok z ∧ f x = ok (toI32 z)) :
    ∃ c, mapR f l = ok c ∧ c.length = l.length ∧
      ∀ s < l.length, IsI32Of (nth c s) ((cnt n P (a + s) * m : ℕ) : ℤ) := by
  have hdvd : (2 ^ 32 : ℤ) ∣ 2 ^ 64 := ⟨2 ^ 32, by norm_num⟩
  have hz : ∀ (x : ℤ) (c : List ℤ), nth (x :: c) 0 = x := fun _ _ => rfl
  have hs' : ∀ (x : ℤ) (c : List ℤ) s, nth (x :: c) (s + 1) = nth c s := fun _ _ _ => rfl
  have ha : ∀ a s, a + 1 + s = a + (s + 1) := fun a s => by ring
  induction l generalizing a with
  | nil => exact ⟨[], rfl, rfl, fun s hs => absurd hs (Nat.not_lt_zero s)⟩
  | cons x l ih =>
    obtain ⟨z, h2, h3⟩ := h 0 (Nat.succ_pos _) x rfl
    obtain ⟨c, h4, h5, h6⟩ := ih (a + 1) (fun s hs y hy => by
      have h7 := h (s + 1) (Nat.succ_lt_succ hs) y hy
      rwa [ha])
    refine ⟨toI32 z :: c, by unfold mapR; rw [h3, bind_ok, h4]; rfl,
      by rw [List.length_cons, List.length_cons, h5], ?_⟩
    intro s hs
    cases s with
    | zero =>
      obtain ⟨w, h7, h8⟩ := mul_release (cnt n P (a + 0)) m
      rw [h2] at h7
      rw [← Res.ok.inj h7] at h8
      have h9 : ((cnt n P (a + 0) * m : ℕ) : ℤ) = (cnt n P (a + 0) : ℤ) * m := Nat.cast_mul _ _
      have h10 : nth (toI32 z :: c) 0 = toI32 z := hz _ _
      rw [h10, h9]
      exact (toI32_is z).trans (hdvd.trans h8)
    | succ s =>
      have h7 := h6 s (Nat.lt_of_succ_lt_succ hs)
      have h8 : nth (toI32 z :: c) (s + 1) = nth c s := hs' _ _ _
      rw [h8]
      rwa [ha] at h7

theorem mapR_cnt {P : ℕ} (n m : ℕ) (l : List (List ℕ)) (f : List ℕ → Res ℤ) (hl : l.length = P)
    (hf : ∀ s < P, ∀ x, l[s]? = some x → ∃ z, Mode.release.mul (cnt n P s) m = ok z ∧
      f x = ok (toI32 z)) :
    ∃ c, mapR f l = ok c ∧ c.length = P ∧
      ∀ s < P, IsI32Of (nth c s) ((cnt n P s * m : ℕ) : ℤ) := by
  obtain ⟨c, h2, h3, h4⟩ := mapR_cnt_aux n P m f l 0 (fun s hs x hx => by
    rw [Nat.zero_add]; exact hf s (by omega) x hx)
  refine ⟨c, h2, h3.trans hl, fun s hs => ?_⟩
  have h5 := h4 s (by omega)
  rwa [Nat.zero_add] at h5

end Verif
