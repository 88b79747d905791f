/- The two-diagonal stencils in an arbitrary arithmetic: explicit results. -/
import Verif.Proof.AnyOps
import Verif.Proof.RndTdma

namespace Verif
open Res Spec

theorem of_wp_ok {α : Type} {r : Res α} {P : α → Prop} {a : α} (h : wp (fun _ => True) r P) (e : r = ok a) : P a := by
  rw [e] at h; exact h

section
variable {K T : Type} [DivBy K T]

theorem wp_divP {x : T} {a : K} {P : T → Prop} (h : ∀ y, divR x a = ok y → P y) :
    wp (fun _ => True) (divR x a) P := by
  cases e : divR x a with
  | ok y => exact h y e
  | err _ => trivial

end

section stencils
variable {K T : Type} [Zero K] [One K] [Neg K] [Add K] [Sub K] [Mul K] [NatCast K] [Pow K ℕ] [DivBy K K]
  [Zero T] [Add T] [Sub T] [SMul K T] [DivBy K T]

/-- what the constructor establishes, in terms of `m`, `d`, `l` -/
structure Stencil2.Form (s : Stencil2 K) (m : ℕ) (d l : ℕ → K) : Prop where
  diag : s.diag = (List.range m).map d
  low2 : s.low2 = (List.range m).map l
  tdiag : s.tdmaDiag = (List.range m).map (fun i => d i * d i + l i * l i)
  toff : s.tdmaOff2 = (List.range (m - 2)).map (fun i => d (i + 2) * l i)

theorem Stencil2.new_form {Q : Err → Prop} {m : ℕ} {d l : ℕ → K} (hm : 2 ≤ m) :
    wp Q (Stencil2.new ((List.range m).map d) ((List.range m).map l)) (fun s => s.Form m d l) := by
  unfold Stencil2.new
  simp only [List.length_map, List.length_range]
  wprun
  simp only [List.length_replicate]
  refine wp_fill (fun i => d i * d i + l i * l i) (by simp) ?_ ?_
  · intro i hi v hv
    wprun
    rw [nth_map_range _ _ _ hi, nth_map_range _ _ _ hi]
  wprun
  refine wp_fill (fun i => d (i + 2) * l i) (by simp) ?_ ?_
  · intro i hi v hv
    wprun
    rw [nth_map_range _ _ _ (by omega), nth_map_range _ _ _ (by omega)]
  wprun
  exact ⟨rfl, rfl, rfl, rfl⟩

variable {s : Stencil2 K} {m : ℕ} {d l : ℕ → K}

theorem Stencil2.Form.sized (hs : s.Form m d l) : s.Sized m :=
  ⟨by rw [hs.diag]; simp, by rw [hs.low2]; simp, by rw [hs.tdiag]; simp, by rw [hs.toff]; simp⟩

/-- `solve` solves the normal equations by elimination -/
theorem Stencil2.Form.solve_eq (hs : s.Form m d l) (u v : List T) (hu : u.length = m + 2) (hv : v.length = m) :
    s.solve u v = tdma s.tdmaOff2 s.tdmaDiag s.tdmaOff2
      ((List.range m).map (fun i => d i • nth u i + l i • nth u (i + 2))) := by
  cases e : tdma s.tdmaOff2 s.tdmaDiag s.tdmaOff2
      ((List.range m).map (fun i => d i • nth u i + l i • nth u (i + 2))) with
  | ok r =>
    refine eq_of_wp ?_
    unfold Stencil2.solve
    rw [hv]
    have h1 := hs.sized.diag
    have h2 := hs.sized.low2
    wprun
    refine wp_fill (fun i => d i • nth u i + l i • nth u (i + 2)) hv ?_ ?_
    · intro i hi v hv; wprun
      rw [hs.diag, hs.low2, nth_map_range _ _ _ hi, nth_map_range _ _ _ hi]
    · rw [e]; exact rfl
  | err r =>
    have : wp (fun x => x = r) (s.solve u v) (fun _ => False) := by
      unfold Stencil2.solve
      rw [hv]
      have h1 := hs.sized.diag
      have h2 := hs.sized.low2
      wprun
      refine wp_fill (fun i => d i • nth u i + l i • nth u (i + 2)) hv ?_ ?_
      · intro i hi v hv; wprun
        rw [hs.diag, hs.low2, nth_map_range _ _ _ hi, nth_map_range _ _ _ hi]
      · rw [e]; exact rfl
    cases h : s.solve u v with
    | ok a => rw [h] at this; exact this.elim
    | err e => rw [h] at this; rw [show e = r from this]

/-- the entries of `dot` -/
def dot2At (m : ℕ) (d l : ℕ → K) (v : ℕ → T) (i : ℕ) : T :=
  if i < 2 then d i • v i else if i < m then d i • v i + l (i - 2) • v (i - 2) else l (i - 2) • v (i - 2)

theorem Stencil2.Form.dot_eq (hs : s.Form m d l) (hm : 2 ≤ m) (v u : List T) (hv : v.length = m)
    (hu : u.length = m + 2) : s.dot v u = ok ((List.range (m + 2)).map (dot2At m d l (nth v))) := by
  have hd := hs.sized.diag
  have hl := hs.sized.low2
  have e1 : ∀ i < m, nth s.diag i = d i := fun i hi => by rw [hs.diag, nth_map_range _ _ _ hi]
  have e2 : ∀ i < m, nth s.low2 i = l i := fun i hi => by rw [hs.low2, nth_map_range _ _ _ hi]
  apply eq_of_wp
  unfold Stencil2.dot
  rw [hu]
  wprun
  refine wp_forRange (fun k x => x.length = m + 2 ∧ ∀ i < k, i < m → nth x i = dot2At m d l (nth v) i)
    ⟨by simpa using hu, ?_⟩ ?_ ?_
  · intro i hi _
    rw [dot2At, if_pos hi, ← e1 i (by omega)]
    have : i = 0 ∨ i = 1 := by omega
    rcases this with rfl | rfl
    · rw [nth_set_ne _ _ _ _ (by omega), nth_set_self _ _ _ (by omega)]
    · rw [nth_set_self _ _ _ (by simp; omega)]
  · rintro i x h2 him ⟨hx, hk⟩
    wprun
    refine ⟨by simpa using hx, fun k hk' hm' => ?_⟩
    rcases Nat.lt_succ_iff_lt_or_eq.mp hk' with h' | rfl
    · rw [nth_set_ne _ _ _ _ (by omega)]; exact hk k h' hm'
    · rw [nth_set_self _ _ _ (by omega), dot2At, if_neg (by omega), if_pos (by omega), e1 _ (by omega),
        e2 _ (by omega)]
  · rintro x ⟨hx, hk⟩
    wprun
    apply ext_nth (by simpa using hx)
    intro i hi
    simp only [List.length_set, hx] at hi
    rw [nth_map_range _ _ _ hi]
    simp only [show m + 2 - 2 = m by omega, show m + 2 - 4 = m - 2 by omega,
      show m + 2 - 1 = m + 1 by omega, show m + 2 - 3 = m - 1 by omega]
    have : i < m ∨ i = m ∨ i = m + 1 := by omega
    rcases this with h | rfl | rfl
    · rw [nth_set_ne _ _ _ _ (by omega), nth_set_ne _ _ _ _ (by omega), hk i (by omega) h]
    · rw [nth_set_ne _ _ _ _ (by omega), nth_set_self _ _ _ (by omega), dot2At, if_neg (by omega),
        if_neg (by omega), e2 _ (by omega)]
    · rw [nth_set_self _ _ _ (by simp; omega), dot2At, if_neg (by omega), if_neg (by omega), e2 _ (by omega),
        show m + 1 - 2 = m - 1 by omega]

variable [Div K]

/-- what a constructed Dirichlet base holds -/
theorem Compo.dirichlet_form {n : ℕ} (h4 : 4 ≤ n) {b : Compo K} (hb : Compo.new .dirichlet n = ok b) :
    b.n = n ∧ b.m = n - 2 ∧ b.ortho = ⟨n, n⟩ ∧ ∃ s, b.stencil = .dirichlet s ∧
      s.Form (n - 2) (fun _ => 1) (fun _ => -1) := by
  refine of_wp_ok (P := fun b => b.n = n ∧ b.m = n - 2 ∧ b.ortho = ⟨n, n⟩ ∧ ∃ s, b.stencil = .dirichlet s ∧
      s.Form (n - 2) (fun _ => 1) (fun _ => -1)) ?_ hb
  unfold Compo.new dirichletNew
  wprun
  rw [replicate_eq_map, replicate_eq_map]
  refine wp_mono (Stencil2.new_form (by omega)) fun s hs => ?_
  wprun
  refine wp_mono (wp_chebNew (by omega)) ?_
  rintro _ rfl
  wprun
  exact ⟨rfl, rfl, rfl, s, rfl, hs⟩

/-- what a constructed Neumann base holds -/
theorem Compo.neumann_form {n : ℕ} (h4 : 4 ≤ n) {b : Compo K} (hb : Compo.new .neumann n = ok b) :
    b.n = n ∧ b.m = n - 2 ∧ b.ortho = ⟨n, n⟩ ∧ ∃ s l, b.stencil = .neumann s ∧
      s.Form (n - 2) (fun _ => 1) l ∧
      ∀ k < n - 2, divR ((-1 : K) * ((k ^ 2 : ℕ) : K)) (((k + 2) ^ 2 : ℕ) : K) = ok (l k) := by
  refine of_wp_ok (P := fun b => b.n = n ∧ b.m = n - 2 ∧ b.ortho = ⟨n, n⟩ ∧ ∃ s l, b.stencil = .neumann s ∧
      s.Form (n - 2) (fun _ => 1) l ∧
      ∀ k < n - 2, divR ((-1 : K) * ((k ^ 2 : ℕ) : K)) (((k + 2) ^ 2 : ℕ) : K) = ok (l k)) ?_ hb
  unfold Compo.new neumannNew
  wprun
  refine wp_forRange (fun i v => v.length = n - 2 ∧ ∀ k < i,
    divR ((-1 : K) * ((k ^ 2 : ℕ) : K)) (((k + 2) ^ 2 : ℕ) : K) = ok (nth v k)) ⟨by simp, by simp⟩ ?_ ?_
  · rintro i v - hi ⟨hv, hk⟩
    wprun
    refine wp_divP fun y hy => ?_
    wprun
    refine ⟨by simpa using hv, fun k hk' => ?_⟩
    rcases Nat.lt_succ_iff_lt_or_eq.mp hk' with h | rfl
    · rw [nth_set_ne _ _ _ _ (by omega)]; exact hk k h
    · rw [nth_set_self _ _ _ (by omega)]; exact hy
  rintro v ⟨hv, hk⟩
  rw [replicate_eq_map, show v = (List.range (n - 2)).map (nth v) from
    ext_nth (by simpa using hv) fun i hi => (nth_map_range _ _ _ (by omega)).symm]
  wprun
  refine wp_mono (Stencil2.new_form (by omega)) fun s hs => ?_
  wprun
  refine wp_mono (wp_chebNew (by omega)) ?_
  rintro _ rfl
  wprun
  refine ⟨rfl, rfl, rfl, s, nth v, rfl, hs, fun k hk' => hk k (by omega)⟩

end stencils
end Verif
