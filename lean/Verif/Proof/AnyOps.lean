/- The slice operators of all bases in an arbitrary arithmetic: they return, the result has the right length
and does not depend on the output slice. -/
import Verif.Proof.AnySizes

namespace Verif
open Res Spec

section stencils
variable {K T : Type} [Zero K] [One K] [Neg K] [Add K] [Sub K] [Mul K] [DivBy K K]
  [Zero T] [Add T] [Sub T] [SMul K T] [DivBy K T]

/-- a buffer overwritten on rows `< 2`, a loop, and the last two rows -/
theorem Stencil2.dot_any {s : Stencil2 K} {m : ℕ} (hs : s.Sized m) (hm : 2 ≤ m) :
    ∃ g, Computes (S := T) s.dot m (m + 2) g := by
  obtain ⟨hd, hl, -, -⟩ := hs
  refine computes_i fun v hv => ?_
  refine ⟨(List.range (m + 2)).map (fun i => if i = 0 then nth s.diag 0 • nth v 0
    else if i = 1 then nth s.diag 1 • nth v 1
    else if i < m then nth s.diag i • nth v i + nth s.low2 (i - 2) • nth v (i - 2)
    else nth s.low2 (i - 2) • nth v (i - 2)), by simp, fun u hu => ?_⟩
  apply eq_of_wp
  unfold dot
  rw [hu]
  wprun
  refine wp_forRange (fun k x => x.length = m + 2 ∧
      ∀ i < k, nth x i = if i = 0 then nth s.diag 0 • nth v 0
        else if i = 1 then nth s.diag 1 • nth v 1
        else nth s.diag i • nth v i + nth s.low2 (i - 2) • nth v (i - 2))
    ⟨by simpa using hu, ?_⟩ ?_ ?_
  · intro i hi
    have : i = 0 ∨ i = 1 := by omega
    rcases this with rfl | rfl
    · rw [nth_set_ne _ _ _ _ (by omega), nth_set_self _ _ _ (by omega), if_pos rfl]
    · rw [nth_set_self _ _ _ (by simp; omega), if_neg (by omega), if_pos rfl]
  · rintro i x h2 him ⟨hx, hk⟩
    wprun
    refine ⟨by simpa using hx, fun k hk' => ?_⟩
    rcases Nat.lt_succ_iff_lt_or_eq.mp hk' with h' | rfl
    · rw [nth_set_ne _ _ _ _ (by omega)]; exact hk k h'
    · rw [nth_set_self _ _ _ (by omega), if_neg (by omega), if_neg (by omega)]
  · rintro x ⟨hx, hk⟩
    wprun
    apply ext_nth (by simpa using hx)
    intro i hi
    simp only [List.length_set, hx] at hi
    rw [nth_map_range _ _ _ hi]
    simp only [show m + 2 - 2 = m by omega, show m + 2 - 4 = m - 2 by omega,
      show m + 2 - 1 = m + 1 by omega, show m + 2 - 3 = m - 1 by omega]
    have : i < m ∨ i = m ∨ i = m + 1 := by omega
    rcases this with h | rfl | rfl
    · rw [nth_set_ne _ _ _ _ (by omega), nth_set_ne _ _ _ _ (by omega), hk i (by omega), if_pos h]
    · rw [nth_set_ne _ _ _ _ (by omega), nth_set_self _ _ _ (by omega), if_neg (by omega), if_neg (by omega),
        if_neg (by omega)]
    · rw [nth_set_self _ _ _ (by simp; omega), if_neg (by omega), if_neg (by omega), if_neg (by omega),
        show m + 1 - 2 = m - 1 by omega]

theorem Stencil3.dot_any {s : Stencil3 K} {m : ℕ} (hs : s.Sized m) (hm : 2 ≤ m) :
    ∃ g, Computes (S := T) s.dot m (m + 2) g := by
  obtain ⟨hd, hl, hh, -, -, -⟩ := hs
  refine computes_i fun v hv => ?_
  refine ⟨(List.range (m + 2)).map (fun i => if i = 0 then nth s.diag 0 • nth v 0
    else if i = 1 then nth s.diag 1 • nth v 1 + nth s.low1 0 • nth v 0
    else if i < m then nth s.diag i • nth v i + nth s.low1 (i - 1) • nth v (i - 1)
      + nth s.low2 (i - 2) • nth v (i - 2)
    else if i = m then nth s.low1 (m - 1) • nth v (m - 1) + nth s.low2 (m - 2) • nth v (m - 2)
    else nth s.low2 (m - 1) • nth v (m - 1)), by simp, fun u hu => ?_⟩
  apply eq_of_wp
  unfold dot
  rw [hu]
  wprun
  refine wp_forRange (fun k x => x.length = m + 2 ∧
      ∀ i < k, nth x i = if i = 0 then nth s.diag 0 • nth v 0
        else if i = 1 then nth s.diag 1 • nth v 1 + nth s.low1 0 • nth v 0
        else nth s.diag i • nth v i + nth s.low1 (i - 1) • nth v (i - 1)
          + nth s.low2 (i - 2) • nth v (i - 2))
    ⟨by simpa using hu, ?_⟩ ?_ ?_
  · intro i hi
    have : i = 0 ∨ i = 1 := by omega
    rcases this with rfl | rfl
    · rw [nth_set_ne _ _ _ _ (by omega), nth_set_self _ _ _ (by omega), if_pos rfl]
    · rw [nth_set_self _ _ _ (by simp; omega), if_neg (by omega), if_pos rfl]
  · rintro i x h2 him ⟨hx, hk⟩
    wprun
    refine ⟨by simpa using hx, fun k hk' => ?_⟩
    rcases Nat.lt_succ_iff_lt_or_eq.mp hk' with h' | rfl
    · rw [nth_set_ne _ _ _ _ (by omega)]; exact hk k h'
    · rw [nth_set_self _ _ _ (by omega), if_neg (by omega), if_neg (by omega)]
  · rintro x ⟨hx, hk⟩
    wprun
    apply ext_nth (by simpa using hx)
    intro i hi
    simp only [List.length_set, hx] at hi
    rw [nth_map_range _ _ _ hi]
    simp only [show m + 2 - 2 = m by omega, show m + 2 - 4 = m - 2 by omega,
      show m + 2 - 1 = m + 1 by omega, show m + 2 - 3 = m - 1 by omega]
    have : i < m ∨ i = m ∨ i = m + 1 := by omega
    rcases this with h | rfl | rfl
    · rw [nth_set_ne _ _ _ _ (by omega), nth_set_ne _ _ _ _ (by omega), hk i (by omega), if_pos h]
    · rw [nth_set_ne _ _ _ _ (by omega), nth_set_self _ _ _ (by omega), if_neg (by omega), if_neg (by omega),
        if_neg (by omega), if_pos rfl]
    · rw [nth_set_self _ _ _ (by simp; omega), if_neg (by omega), if_neg (by omega), if_neg (by omega),
        if_neg (by omega)]

variable [TotalDiv K K] [TotalDiv K T]

theorem Stencil2.solve_any {s : Stencil2 K} {m : ℕ} (hs : s.Sized m) (hm : 3 ≤ m) :
    ∃ g, Computes (S := T) s.solve (m + 2) m g := by
  obtain ⟨hd, hl, ht, ho⟩ := hs
  refine computes_i fun u hu => ?_
  obtain ⟨r, e, hr⟩ := wp_total.mp (tdma_len (Q := fun _ => False) s.tdmaOff2 s.tdmaDiag s.tdmaOff2
    ((List.range m).map (fun i => nth s.diag i • nth u i + nth s.low2 i • nth u (i + 2))) hm (by simp) ho ht ho)
  refine ⟨r, hr, fun v hv => eq_of_wp ?_⟩
  unfold solve
  rw [hv]
  wprun
  refine wp_fill (fun i => nth s.diag i • nth u i + nth s.low2 i • nth u (i + 2)) hv ?_ ?_
  · intro i hi v hv; wprun; rfl
  · rw [e]; exact rfl

theorem Stencil3.solve_any {s : Stencil3 K} {m : ℕ} (hs : s.Sized m) (hm : 4 ≤ m) :
    ∃ g, Computes (S := T) s.solve (m + 2) m g := by
  obtain ⟨hd, hl, hh, ht, ho1, ho2⟩ := hs
  refine computes_i fun u hu => ?_
  obtain ⟨r, e, hr⟩ := wp_total.mp (pdma_len (Q := fun _ => False) (l2 := s.fdmaOff2) (l1 := s.fdmaOff1)
    (d0 := s.fdmaDiag) (u1 := s.fdmaOff1) (u2 := s.fdmaOff2) (rhs :=
    (List.range m).map (fun i => nth s.diag i • nth u i + nth s.low1 i • nth u (i + 1)
      + nth s.low2 i • nth u (i + 2))) hm (by simp) ho2 ho1 ht ho1 ho2)
  refine ⟨r, hr, fun v hv => eq_of_wp ?_⟩
  unfold solve
  rw [hv]
  wprun
  refine wp_fill (fun i => nth s.diag i • nth u i + nth s.low1 i • nth u (i + 1)
      + nth s.low2 i • nth u (i + 2)) hv ?_ ?_
  · intro i hi v hv; wprun; rfl
  · rw [e]; exact rfl

theorem Stencil4.solve_any {s : Stencil4 K} {m : ℕ} (hs : s.Sized m) (hm : 6 ≤ m) :
    ∃ g, Computes (S := T) s.solve (m + 4) m g := by
  obtain ⟨hd, hl, hh, ht, ho2, ho4⟩ := hs
  refine computes_i fun u hu => ?_
  obtain ⟨r, e, hr⟩ := wp_total.mp (pdma2_len (Q := fun _ => False) (l4 := s.fdmaOff4) (l2 := s.fdmaOff2)
    (d0 := s.fdmaDiag) (u2 := s.fdmaOff2) (u4 := s.fdmaOff4) (rhs :=
    (List.range m).map (fun i => nth s.diag i • nth u i + nth s.low2 i • nth u (i + 2)
      + nth s.low4 i • nth u (i + 4))) hm (by simp) ho4 ho2 ht ho2 ho4)
  refine ⟨r, hr, fun v hv => eq_of_wp ?_⟩
  unfold solve
  rw [hv]
  wprun
  refine wp_fill (fun i => nth s.diag i • nth u i + nth s.low2 i • nth u (i + 2)
      + nth s.low4 i • nth u (i + 4)) hv ?_ ?_
  · intro i hi v hv; wprun; rfl
  · rw [e]; exact rfl

end stencils

/-! ### Chebyshev -/

section ortho
variable {A : Type} [Zero A] [One A] [Neg A] [Add A] [Mul A] [Div A] [NatCast A] [DivBy A A] [HasDct A]
  [TotalDiv A A] [DctInPlace A]

theorem zipSet_id_computes {T : Type} (n : ℕ) :
    ∃ g, Computes (fun x out : List T => ok (zipSet id x out)) n n g :=
  computes_i fun x hx => ⟨x, hx, fun out ho => by
    rw [zipSet_eq_map _ _ _ (by omega), List.map_id]⟩

theorem Cheb.forward_any {n : ℕ} (hn : 2 ≤ n) :
    ∃ g, Computes (Cheb.forwardSlice (A := A) ⟨n, n⟩) n n g := by
  refine computes_i fun x hx => ?_
  obtain ⟨cor, hc⟩ := TotalDiv.div ((1 + 1) * (1 : A)) ((n - 1 : ℕ) : A)
  set w := HasDct.dct (x.reverse.map (fun y => y * cor)) with hw
  have hwl : w.length = n := by rw [hw, DctInPlace.length]; simpa using hx
  clear_value w
  refine ⟨(w.set 0 (nth w 0 * (1 / 2))).set (n - 1)
    (nth (w.set 0 (nth w 0 * (1 / 2))) (n - 1) * (1 / 2)), by simpa using hwl, fun out ho => eq_of_wp ?_⟩
  unfold Cheb.forwardSlice
  refine wp_bind_i (wp_assert_i hx ?_)
  refine wp_bind_i (wp_assert_i (by omega) ?_)
  refine wp_bind_i (wp_usub_i (show 1 ≤ n by omega) ?_)
  show wp _ (divR ((1 + 1) * (1 : A)) ((n - 1 : ℕ) : A) >>= _) _
  rw [hc, bind_ok]
  dsimp only
  rw [zipSet_eq_map _ _ _ (by simp; omega), ← hw]
  wprun
  rfl

theorem Cheb.backward_any {n : ℕ} (hn : 2 ≤ n) :
    ∃ g, Computes (Cheb.backwardSlice (A := A) ⟨n, n⟩) n n g := by
  refine computes_i fun x hx => ?_
  set w := (List.range n).map (fun i => if i % 2 = 0 then nth x i else nth x i * -1) with hw
  have hwl : w.length = n := by simp [hw]
  clear_value w
  refine ⟨HasDct.dct ((w.set 0 (nth w 0 * 2)).set (n - 1)
    (nth (w.set 0 (nth w 0 * 2)) (n - 1) * 2)), by
      rw [DctInPlace.length]; simpa using hwl, fun out ho => eq_of_wp ?_⟩
  unfold Cheb.backwardSlice
  refine wp_bind_i (wp_assert_i hx ?_)
  refine wp_bind_i (wp_assert_i (by omega) ?_)
  rw [hx, ho, min_self]
  refine wp_bind_i ?_
  refine wp_fill (fun i => if i % 2 = 0 then nth x i else nth x i * -1) ho ?_ ?_
  · intro i hi v hv
    refine wp_ite_i (fun h => ?_) (fun h => ?_)
    · wprun; rw [if_pos h]
    · wprun; rw [if_neg h]
  rw [← hw]
  wprun
  rfl

end ortho

section gradient
variable {K T : Type} [Mul K] [NatCast K] [Zero T] [Add T] [SMul K T] [DivBy K T] [TotalDiv K T]

theorem chebGradPass_len {Q : Err → Prop} {m : ℕ} (hm : 3 ≤ m) (a : List T) (ha : a.length = m) :
    wp Q (chebGradPass K m a) (fun x => x.length = m) := by
  unfold chebGradPass
  wprunT
  refine wp_keep m (by simpa using ha) ?_ ?_
  · intro i _ hi v hv; wprunT; simpa using hv
  intro v hv
  wprunT
  refine wp_forRev (fun _ x => x.length = m) (by simpa using hv) ?_ ?_
  · intro i x _ hi hx; wprunT; simpa using hx
  intro x hx
  wprunT
  simpa using hx

theorem Cheb.gradient_any {n : ℕ} (hn : 3 ≤ n) (d : ℕ) :
    ∃ g, Computes (fun x out : List T => Cheb.gradientSlice K ⟨n, n⟩ x out d) n n g := by
  refine computes_i fun x hx => ?_
  obtain ⟨r, e, hr⟩ := wp_total.mp (wp_keep (Q := fun _ => False) (a := 0) (b := d)
    (body := fun _ out => chebGradPass K n out) (v0 := x) (P := fun v => v.length = n) n hx
    (fun i _ _ v hv => chebGradPass_len hn v hv) (fun _ h => h))
  refine ⟨r, hr, fun out ho => eq_of_wp ?_⟩
  unfold Cheb.gradientSlice
  wprun
  rw [zipSet_eq_map _ _ _ (by omega), List.map_id, e]
  exact rfl

end gradient

/-! ### composite bases -/

section compo
variable {K T : Type} [Zero K] [One K] [Neg K] [Add K] [Sub K] [Mul K] [Div K] [NatCast K] [Pow K ℕ]
  [DivBy K K] [Zero T] [Add T] [Sub T] [SMul K T] [DivBy K T] [TotalDiv K K] [TotalDiv K T]
  {b : Compo K} {k : CKind} {n : ℕ}

theorem Compo.toOrtho_any (hb : b.Sized k n) (hk : k.nbc = 2) :
    ∃ g, Computes (fun x out : List T => b.toOrthoSlice x out) b.m n g := by
  obtain ⟨h1, h2, h3, h4, h5⟩ := hb
  unfold toOrthoSlice Stencils.dot
  have e : n = b.m + 2 := by
    have := CKind.nbc_le k; omega
  have hm : 2 ≤ b.m := by have := CKind.nbc_le k; omega
  rw [e]
  cases k
  · obtain ⟨s, hs, hz⟩ := h5
    rw [hs]; exact Stencil2.dot_any hz hm
  · obtain ⟨s, hs, hz⟩ := h5
    rw [hs]; exact Stencil2.dot_any hz hm
  · obtain ⟨s, hs, hz⟩ := h5
    rw [hs]; exact Stencil3.dot_any hz hm
  · simp [CKind.nbc] at hk
  · simp [CKind.nbc] at hk

theorem Compo.fromOrtho_any (hb : b.Sized k n) (hn : k.minSolve ≤ n) :
    ∃ g, Computes (fun x out : List T => b.fromOrthoSlice x out) n b.m g := by
  obtain ⟨h1, h2, h3, h4, h5⟩ := hb
  unfold fromOrthoSlice Stencils.solve
  cases k
  all_goals
    simp only [CKind.minSolve] at hn
    simp only [CKind.nbc] at h2
    obtain ⟨s, hs, hz⟩ := h5
    rw [hs]
  · rw [show n = b.m + 2 by omega]; exact Stencil2.solve_any hz (by omega)
  · rw [show n = b.m + 2 by omega]; exact Stencil2.solve_any hz (by omega)
  · rw [show n = b.m + 2 by omega]; exact Stencil3.solve_any hz (by omega)
  · rw [show n = b.m + 4 by omega]; exact Stencil4.solve_any hz (by omega)
  · rw [show n = b.m + 4 by omega]; exact Stencil4.solve_any hz (by omega)

/-- an operator run on a zeroed scratch slice, then another one -/
theorem computes_scratch {P S R : Type} [Zero S] {f : List P → List S → Res (List S)}
    {f' : List S → List R → Res (List R)} {l m r : ℕ}
    (h : ∃ g, Computes f l m g) (h' : ∃ g, Computes f' m r g) :
    ∃ g, Computes (fun x out => f x (List.replicate m 0) >>= fun s => f' s out) l r g := by
  obtain ⟨g, hg⟩ := h
  obtain ⟨g', hg'⟩ := h'
  refine ⟨fun x => g' (g x), fun x out hx ho => ?_⟩
  obtain ⟨e, hl⟩ := hg x (List.replicate m 0) hx (by simp)
  obtain ⟨e', hl'⟩ := hg' (g x) out hl ho
  refine ⟨?_, hl'⟩
  show (f x (List.replicate m 0) >>= fun s => f' s out) = _
  rw [e, bind_ok, e']

theorem Compo.gradient_any (hb : b.Sized k n) (hk : k.nbc = 2) (d : ℕ) :
    ∃ g, Computes (fun x out : List T => b.gradientSlice x out d) b.m n g := by
  have hn : 3 ≤ n := by have := CKind.nbc_le k; have := hb.le; omega
  have := computes_scratch (Compo.toOrtho_any (T := T) hb hk) (Cheb.gradient_any (K := K) (T := T) hn d)
  unfold gradientSlice
  simp only [lenOrth, hb.ortho, Cheb.lenOrth]
  exact this

variable [SMul K K] [HasDct K] [DctInPlace K]

theorem Compo.forward_any (hb : b.Sized k n) (hn : k.minSolve ≤ n) :
    ∃ g, Computes b.forwardSlice n b.m g := by
  have h2 : 2 ≤ n := by have := CKind.nbc_le k; have := hb.le; omega
  have := computes_scratch (Cheb.forward_any (A := K) h2) (Compo.fromOrtho_any (T := K) hb hn)
  unfold forwardSlice
  simp only [lenOrth, hb.ortho, Cheb.lenOrth]
  exact this

theorem Compo.backward_any (hb : b.Sized k n) (hk : k.nbc = 2) :
    ∃ g, Computes b.backwardSlice b.m n g := by
  have h2 : 2 ≤ n := by have := CKind.nbc_le k; have := hb.le; omega
  have := computes_scratch (Compo.toOrtho_any (T := K) hb hk) (Cheb.backward_any (A := K) h2)
  unfold backwardSlice
  simp only [lenOrth, hb.ortho, Cheb.lenOrth]
  exact this

end compo

/-! ### Fourier -/

section fourier
variable {A C : Type} [Cplx A C] [HasFft A C] [Zero A] [One A] [Mul A] [NatCast A] [DivBy A A] [Zero C]
  [FftSizes A C] [TotalDiv A A]

theorem C2c.forward_any (n : ℕ) : ∃ g, Computes (C2c.forwardSlice (C := C) ⟨n, n⟩) n n g := by
  refine computes_i fun x hx => ⟨HasFft.fwd x, by rw [FftSizes.fwd, hx], fun out ho => eq_of_wp ?_⟩
  unfold C2c.forwardSlice
  refine wp_bind_i (wp_assert_i hx ?_)
  refine wp_bind_i (wp_assert_i ho ?_)
  dsimp only
  rw [zipSet_eq_map _ _ _ (by omega), List.map_id]
  exact rfl

theorem C2c.backward_any (n : ℕ) : ∃ g, Computes (C2c.backwardSlice (C := C) ⟨n, n⟩) n n g := by
  obtain ⟨cor, hc⟩ := TotalDiv.div (1 : A) (n : A)
  refine computes_i fun x hx => ⟨HasFft.inv (x.map (fun z : C => (Cplx.pair (cor * Cplx.re z) (cor * Cplx.im z) : C))),
    by rw [FftSizes.inv, List.length_map, hx], fun out ho => eq_of_wp ?_⟩
  unfold C2c.backwardSlice
  refine wp_bind_i (wp_assert_i hx ?_)
  refine wp_bind_i (wp_assert_i ho ?_)
  show wp _ (divR (1 : A) (n : A) >>= _) _
  rw [hc, bind_ok]
  dsimp only
  rw [zipSet_eq_map _ _ _ (by omega)]
  exact rfl

theorem R2c.forward_any (n : ℕ) : ∃ g, Computes (R2c.forwardSlice (C := C) ⟨n, n / 2 + 1⟩) n (n / 2 + 1) g := by
  refine computes_i fun x hx => ⟨HasFft.rfwd x, by rw [FftSizes.rfwd, hx], fun out ho => eq_of_wp ?_⟩
  unfold R2c.forwardSlice
  refine wp_bind_i (wp_assert_i hx ?_)
  refine wp_bind_i (wp_assert_i ho ?_)
  dsimp only
  rw [zipSet_eq_map _ _ _ (by simp), List.map_id]
  exact rfl

theorem R2c.backward_any (n : ℕ) : ∃ g, Computes (R2c.backwardSlice (C := C) ⟨n, n / 2 + 1⟩) (n / 2 + 1) n g := by
  obtain ⟨cor, hc⟩ := TotalDiv.div (1 : A) (n : A)
  refine computes_i fun x hx => ?_
  set w := x.map (fun z : C => (Cplx.pair (cor * Cplx.re z) (cor * Cplx.im z) : C)) with hw
  have hwl : w.length = n / 2 + 1 := by simp [hw, hx]
  clear_value w
  let w1 := w.set 0 (Cplx.pair (Cplx.re (nth w 0)) 0 : C)
  let w2 := if n % 2 = 0 then w1.set (n / 2) (Cplx.pair (Cplx.re (nth w1 (n / 2))) 0 : C) else w1
  have h1 : w1.length = n / 2 + 1 := by simp [w1, hwl]
  have h2 : w2.length = n / 2 + 1 := by
    simp only [w2]; split <;> simp [h1]
  have im1 : Cplx.im (nth w1 0) = 0 := by
    simp only [w1]; rw [nth_set_self _ _ _ (by omega), FftSizes.im_pair]
  have im2 : Cplx.im (nth w2 0) = 0 := by
    simp only [w2]
    split
    · by_cases h0 : n / 2 = 0
      · rw [h0, nth_set_self _ _ _ (by omega), FftSizes.im_pair]
      · rw [nth_set_ne _ _ _ _ h0, im1]
    · exact im1
  have im3 : n % 2 = 0 → Cplx.im (nth w2 (n / 2)) = 0 := by
    intro h
    simp only [w2, if_pos h]
    rw [nth_set_self _ _ _ (by omega), FftSizes.im_pair]
  obtain ⟨r, e, hr⟩ := FftSizes.rinv n w2 h2 im2 im3
  refine ⟨r, hr, fun out ho => eq_of_wp ?_⟩
  unfold R2c.backwardSlice
  refine wp_bind_i (wp_assert_i hx ?_)
  refine wp_bind_i (wp_assert_i ho ?_)
  show wp _ (divR (1 : A) (n : A) >>= _) _
  rw [hc, bind_ok]
  dsimp only
  rw [zipSet_eq_map _ _ _ (by simp), ← hw]
  wprun
  refine wp_cut (fun v => v = w2) ?_ ?_
  · refine wp_ite_i (fun h => ?_) (fun h => ?_)
    · wprun
      simp only [w2, if_pos h, w1, Nat.add_sub_cancel]
    · wprun
      simp only [w2, if_neg h, w1]
  · rintro _ rfl
    rw [e]; exact rfl

variable [Mul C]

theorem C2c.gradPass_len {Q : Err → Prop} {n : ℕ} (hn : 1 ≤ n) (a : List C) (ha : a.length = n) :
    wp Q (C2c.gradPass n a) (fun x => x.length = n) := by
  unfold C2c.gradPass
  wprun
  refine wp_keep n ha ?_ ?_
  · intro i _ hi v hv; wprun; simpa using hv
  intro v hv
  rw [hv]
  refine wp_keep n hv ?_ (fun _ h => h)
  intro i _ hi v hv; wprun; simpa using hv

theorem C2c.gradient_any {n : ℕ} (hn : 1 ≤ n) (d : ℕ) :
    ∃ g, Computes (fun x out : List C => C2c.gradientSlice ⟨n, n⟩ x out d) n n g := by
  refine computes_i fun x hx => ?_
  obtain ⟨r, e, hr⟩ := wp_total.mp (wp_keep (Q := fun _ => False) (a := 0) (b := d)
    (body := fun _ out => C2c.gradPass (C := C) n out) (v0 := x) (P := fun v => v.length = n) n hx
    (fun i _ _ v hv => C2c.gradPass_len hn v hv) (fun _ h => h))
  refine ⟨r, hr, fun out ho => eq_of_wp ?_⟩
  unfold C2c.gradientSlice
  refine wp_bind_i (wp_assert_i (by omega) ?_)
  refine wp_bind_i (wp_assert_i ho ?_)
  refine wp_bind_i (wp_usub_i hn ?_)
  rw [zipSet_eq_map _ _ _ (by omega), List.map_id]
  show wp _ (forRange 0 d (fun _ out => C2c.gradPass n out) x) _
  rw [e]
  exact rfl

theorem R2c.gradPass_len {Q : Err → Prop} {n : ℕ} (a : List C) (ha : a.length = n) :
    wp Q (R2c.gradPass a) (fun x => x.length = n) := by
  unfold R2c.gradPass
  refine wp_keep n ha ?_ (fun _ h => h)
  intro i _ hi v hv; wprun; simpa using hv

theorem R2c.gradient_any (n : ℕ) (d : ℕ) :
    ∃ g, Computes (fun x out : List C => R2c.gradientSlice ⟨n, n / 2 + 1⟩ x out d) (n / 2 + 1) (n / 2 + 1) g := by
  refine computes_i fun x hx => ?_
  obtain ⟨r, e, hr⟩ := wp_total.mp (wp_keep (Q := fun _ => False) (a := 0) (b := d)
    (body := fun _ out => R2c.gradPass (C := C) out) (v0 := x) (P := fun v => v.length = n / 2 + 1) _ hx
    (fun i _ _ v hv => R2c.gradPass_len v hv) (fun _ h => h))
  refine ⟨r, hr, fun out ho => eq_of_wp ?_⟩
  unfold R2c.gradientSlice
  refine wp_bind_i (wp_assert_i (by omega) ?_)
  refine wp_bind_i (wp_assert_i ho ?_)
  rw [zipSet_eq_map _ _ _ (by omega), List.map_id, e]
  exact rfl

end fourier
end Verif
