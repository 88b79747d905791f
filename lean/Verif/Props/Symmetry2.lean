/-
Property C89 in two and three dimensions: symmetries of the data along any axes are symmetries of the coefficients.
-/
import Verif.Props.Symmetry
import Verif.Props.Tensor
import Verif.Spec.Symmetry2

namespace Verif.Props
open Res Spec Finset

theorem permuted {S : Type} [Zero S] (x : ℕ → List S) (n : ℕ) (σ : ℕ → ℕ) :
    ∃ x' : ℕ → List S, (∀ r, (x' r).length = n) ∧ ∀ r, ∀ j < n, nth (x' r) j = nth (x r) (σ j) :=
  ⟨fun r => (List.range n).map fun i => nth (x r) (σ i), fun r => by simp, fun r j hj => nth_map_range _ _ _ hj⟩

theorem nth_map_permuted {S S' : Type} [Zero S] [Zero S'] (f : S → S') {x x' : List S} {n : ℕ} {σ : ℕ → ℕ}
    (lx : x.length = n) (lx' : x'.length = n) (hσ : ∀ j < n, σ j < n) (h : ∀ j < n, nth x' j = nth x (σ j)) :
    ∀ j < n, nth (x'.map f) j = nth (x.map f) (σ j) := fun j hj => by
  rw [nth_map f x' j (by omega), nth_map f x (σ j) (by rw [lx]; exact hσ j hj), h j hj]

theorem returns_exists {R S T : Type} [CommRing R] [AddCommGroup S] [Module R S] [AddCommGroup T] [Module R T]
    {f : List S → List T → Res (List T)} {n m : ℕ} (h : LinOp R f n m) {x : List S} (hx : x.length = n) :
    ∃ X, Returns f m x X := by
  obtain ⟨g, hg, -⟩ := h
  exact ⟨g x, fun out ho => (hg x out hx ho).1⟩

section
variable {R P I S T : Type} [CommRing R] [AddCommGroup P] [Module R P] [CommRing I] [Algebra R I] [CommRing S]
  [Algebra I S] [Zero T]

/-- C89 in two dimensions: if the data are rearranged by the symmetries `σ` of the first and `τ` of the second base,
the coefficients are multiplied by the factors of the two symmetries. -/
theorem C89_space2 (sp : Space2 P I S T)
    (h0 : LinOp I sp.base0.forwardSlice sp.base0.lenPhys sp.base0.lenSpec)
    (h1 : LinOp R sp.base1.forwardSlice sp.base1.lenPhys sp.base1.lenSpec) : SymmetricSpace2 sp := by
  intro σ τ β γ s0 s1 a a' ha ha' h
  have F := C110_space2_forward sp h0 h1
  set n0 := sp.base0.lenPhys with hn0
  set n1 := sp.base1.lenPhys with hn1
  set x : ℕ → List R := fun r => (List.range n0).map fun i => if r = i then 1 else 0 with hx
  set y : ℕ → List P := fun r => (List.range n1).map fun j => at_ a [r, j] with hy
  have sum : ∀ i < n0, ∀ j < n1, ∑ r ∈ range n0, nth (x r) i • nth (y r) j = at_ a [i, j] := fun i hi j hj => by
    rw [Finset.sum_eq_single i]
    · rw [hx, hy]; dsimp only
      rw [nth_map_range _ _ _ hi, nth_map_range _ _ _ hj, if_pos rfl, one_smul]
    · intro r _ hr
      rw [hx]; dsimp only
      rw [nth_map_range _ _ _ hi, if_neg hr, zero_smul]
    · intro h; exact absurd (mem_range.mpr hi) h
  have lx : ∀ r, (x r).length = n0 := fun r => by simp [hx]
  have ly : ∀ r, (y r).length = n1 := fun r => by simp [hy]
  clear_value x y
  obtain ⟨x', lx', nx'⟩ := permuted x n0 σ
  obtain ⟨y', ly', ny'⟩ := permuted y n1 τ
  choose X eX using fun r => returns_exists h0 (x := (x r).map (algebraMap R I)) (by rw [List.length_map, lx])
  choose Y eY using fun r => returns_exists h1 (x := y r) (ly r)
  choose X' eX' hX' using fun r => s0.2 ((x r).map (algebraMap R I)) ((x' r).map (algebraMap R I)) (X r)
    (by rw [List.length_map, lx]) (by rw [List.length_map, lx'])
    (nth_map_permuted _ (lx r) (lx' r) s0.1 (nx' r)) (eX r)
  choose Y' eY' hY' using fun r => s1.2 (y r) (y' r) (Y r) (ly r) (ly' r) (ny' r) (eY r)
  obtain ⟨v, hv, sv⟩ := F n0 x y X Y (fun r _ => ⟨lx r, ly r, eX r, eY r⟩) a
    ⟨ha, fun i hi j hj => (sum i hi j hj).symm⟩
  obtain ⟨v', hv', sv'⟩ := F n0 x' y' X' Y' (fun r _ => ⟨lx' r, ly' r, eX' r, eY' r⟩) a'
    ⟨ha', fun i hi j hj => by
      rw [h i hi j hj, ← sum _ (s0.1 i hi) _ (s1.1 j hj)]
      refine Finset.sum_congr rfl fun r _ => ?_
      dsimp only
      rw [nx' r i hi, ny' r j hj]⟩
  refine ⟨v, v', hv, hv', sv.1, sv'.1, fun k hk l hl => ?_⟩
  rw [sv.2 k hk l hl, sv'.2 k hk l hl, Finset.mul_sum, Finset.smul_sum]
  refine Finset.sum_congr rfl fun r _ => ?_
  dsimp only
  rw [hX' r k hk, hY' r l hl]
  simp only [Algebra.smul_def, map_mul]
  ring

end

section
variable {R P I J S T : Type} [CommRing R] [AddCommGroup P] [Module R P] [CommRing I] [Algebra R I] [CommRing J]
  [Algebra I J] [CommRing S] [Algebra J S] [Zero T]

/-- C89 in three dimensions. -/
theorem C89_space3 (sp : Space3 P I J S T)
    (h0 : LinOp J sp.base0.forwardSlice sp.base0.lenPhys sp.base0.lenSpec)
    (h1 : LinOp I sp.base1.forwardSlice sp.base1.lenPhys sp.base1.lenSpec)
    (h2 : LinOp R sp.base2.forwardSlice sp.base2.lenPhys sp.base2.lenSpec) : SymmetricSpace3 sp := by
  intro σ τ ρ β γ δ s0 s1 s2 a a' ha ha' h
  have F := C110_space3_forward sp h0 h1 h2
  set n0 := sp.base0.lenPhys with hn0
  set n1 := sp.base1.lenPhys with hn1
  set n2 := sp.base2.lenPhys with hn2
  set x : ℕ → List R := fun r => (List.range n0).map fun i => if r / n1 = i then 1 else 0 with hx
  set y : ℕ → List R := fun r => (List.range n1).map fun j => if r % n1 = j then 1 else 0 with hy
  set z : ℕ → List P := fun r => (List.range n2).map fun k => at_ a [r / n1, r % n1, k] with hz
  have sum : ∀ i < n0, ∀ j < n1, ∀ k < n2,
      ∑ r ∈ range (n0 * n1), (nth (x r) i * nth (y r) j) • nth (z r) k = at_ a [i, j, k] := fun i hi j hj k hk => by
    have hn1' : 0 < n1 := by omega
    have ed : (i * n1 + j) / n1 = i := by
      rw [mul_comm, Nat.mul_add_div hn1', Nat.div_eq_of_lt hj, add_zero]
    have em : (i * n1 + j) % n1 = j := by
      rw [mul_comm, Nat.mul_add_mod, Nat.mod_eq_of_lt hj]
    rw [Finset.sum_eq_single (i * n1 + j)]
    · rw [hx, hy, hz]; dsimp only
      rw [nth_map_range _ _ _ hi, nth_map_range _ _ _ hj, nth_map_range _ _ _ hk, ed, em, if_pos rfl, if_pos rfl,
        one_mul, one_smul]
    · intro r _ hr
      rw [hx, hy]; dsimp only
      rw [nth_map_range _ _ _ hi, nth_map_range _ _ _ hj]
      by_cases e1 : r / n1 = i
      · have e2 : r % n1 ≠ j := fun e2 => hr (by rw [← e1, ← e2, mul_comm]; exact (Nat.div_add_mod r n1).symm)
        rw [if_neg e2, mul_zero, zero_smul]
      · rw [if_neg e1, zero_mul, zero_smul]
    · intro h
      refine absurd (mem_range.mpr ?_) h
      calc i * n1 + j < i * n1 + n1 := by omega
        _ = (i + 1) * n1 := by ring
        _ ≤ n0 * n1 := Nat.mul_le_mul_right _ hi
  have lx : ∀ r, (x r).length = n0 := fun r => by simp [hx]
  have ly : ∀ r, (y r).length = n1 := fun r => by simp [hy]
  have lz : ∀ r, (z r).length = n2 := fun r => by simp [hz]
  clear_value x y z
  obtain ⟨x', lx', nx'⟩ := permuted x n0 σ
  obtain ⟨y', ly', ny'⟩ := permuted y n1 τ
  obtain ⟨z', lz', nz'⟩ := permuted z n2 ρ
  choose X eX using fun r => returns_exists h0 (x := (x r).map fun t => algebraMap I J (algebraMap R I t))
    (by rw [List.length_map, lx])
  choose Y eY using fun r => returns_exists h1 (x := (y r).map (algebraMap R I)) (by rw [List.length_map, ly])
  choose Z eZ using fun r => returns_exists h2 (x := z r) (lz r)
  choose X' eX' hX' using fun r => s0.2 ((x r).map fun t => algebraMap I J (algebraMap R I t))
    ((x' r).map fun t => algebraMap I J (algebraMap R I t)) (X r)
    (by rw [List.length_map, lx]) (by rw [List.length_map, lx'])
    (nth_map_permuted _ (lx r) (lx' r) s0.1 (nx' r)) (eX r)
  choose Y' eY' hY' using fun r => s1.2 ((y r).map (algebraMap R I)) ((y' r).map (algebraMap R I)) (Y r)
    (by rw [List.length_map, ly]) (by rw [List.length_map, ly'])
    (nth_map_permuted _ (ly r) (ly' r) s1.1 (ny' r)) (eY r)
  choose Z' eZ' hZ' using fun r => s2.2 (z r) (z' r) (Z r) (lz r) (lz' r) (nz' r) (eZ r)
  obtain ⟨v, hv, sv⟩ := F (n0 * n1) x y z X Y Z (fun r _ => ⟨lx r, ly r, lz r, eX r, eY r, eZ r⟩) a
    ⟨ha, fun i hi j hj k hk => (sum i hi j hj k hk).symm⟩
  obtain ⟨v', hv', sv'⟩ := F (n0 * n1) x' y' z' X' Y' Z'
    (fun r _ => ⟨lx' r, ly' r, lz' r, eX' r, eY' r, eZ' r⟩) a'
    ⟨ha', fun i hi j hj k hk => by
      rw [h i hi j hj k hk, ← sum _ (s0.1 i hi) _ (s1.1 j hj) _ (s2.1 k hk)]
      refine Finset.sum_congr rfl fun r _ => ?_
      dsimp only
      rw [nx' r i hi, ny' r j hj, nz' r k hk]⟩
  refine ⟨v, v', hv, hv', sv.1, sv'.1, fun k hk l hl m hm => ?_⟩
  rw [sv.2 k hk l hl m hm, sv'.2 k hk l hl m hm, Finset.mul_sum, Finset.smul_sum]
  refine Finset.sum_congr rfl fun r _ => ?_
  dsimp only
  rw [hX' r k hk, hY' r l hl, hZ' r m hm]
  simp only [Algebra.smul_def, map_mul]
  ring

end

/-! ### The symmetries of the bases -/

theorem symmetric_of {P S T : Type} [Zero P] [CommRing S] (b : Base P S T) (σ : ℕ → ℕ) (β : ℕ → S)
    (g : List P → List P) (m : List S → List S) (hσ : ∀ j < b.lenPhys, σ j < b.lenPhys)
    (lg : ∀ x, (g x).length = x.length)
    (hg : ∀ x, x.length = b.lenPhys → ∀ j < b.lenPhys, nth (g x) j = nth x (σ j))
    (hm : ∀ X : List S, X.length = b.lenSpec → ∀ k < b.lenSpec, nth (m X) k = β k * nth X k)
    (hl : ∀ x out X, x.length = b.lenPhys → out.length = b.lenSpec → b.forwardSlice x out = ok X →
      X.length = b.lenSpec)
    (h : ∀ x out out', x.length = b.lenPhys → out.length = b.lenSpec → out'.length = b.lenSpec →
      ∃ X, b.forwardSlice x out = ok X ∧ b.forwardSlice (g x) out' = ok (m X)) : Symmetric b σ β := by
  refine ⟨hσ, fun x x' X lx lx' hx hX => ?_⟩
  have e : x' = g x := ext_nth (by rw [lx', lg, lx]) fun j hj => by
    rw [lx'] at hj
    rw [hx j hj, hg x lx j hj]
  have lo : (List.replicate b.lenSpec (0 : S)).length = b.lenSpec := List.length_replicate ..
  refine ⟨m X, fun out ho => ?_, fun k hk => hm X (hl x _ X lx lo (hX _ lo)) k hk⟩
  obtain ⟨X', h1, h2⟩ := h x _ out lx lo ho
  rw [e, h2, Res.ok.inj (h1.symm.trans (hX _ lo))]

theorem fwd_len {R P S T : Type} [CommRing R] [AddCommGroup P] [Module R P] [AddCommGroup S] [Module R S]
    {b : Base P S T} (h : LinOp R b.forwardSlice b.lenPhys b.lenSpec) (x : List P) (out X : List S)
    (hx : x.length = b.lenPhys) (ho : out.length = b.lenSpec) (e : b.forwardSlice x out = ok X) :
    X.length = b.lenSpec := by
  obtain ⟨g, hg, -⟩ := h
  obtain ⟨h1, h2⟩ := hg x out hx ho
  rw [← Res.ok.inj (h1.symm.trans e)]
  exact h2

/-- C89: leaving the data alone leaves the coefficients alone. -/
theorem C89_symmetric_id {R P S T : Type} [CommRing R] [AddCommGroup P] [Module R P] [CommRing S] [Module R S]
    {b : Base P S T} (h : LinOp R b.forwardSlice b.lenPhys b.lenSpec) :
    Symmetric b (fun j => j) (fun _ => 1) :=
  symmetric_of b _ _ (fun x => x) (fun X => X) (fun _ h => h) (fun _ => rfl) (fun _ _ _ _ => rfl)
    (fun _ _ _ _ => (one_mul _).symm) (fwd_len h) fun x out out' hx ho ho' => by
    obtain ⟨g, hg, -⟩ := h
    exact ⟨g x, (hg x out hx ho).1, (hg x out' hx ho').1⟩

/-- C89: mirroring the data of a Chebyshev base, or of a composite base with the same condition at both ends, changes
the sign of every odd coefficient. -/
theorem C89_symmetric_mirror {T : Type} [AddCommGroup T] [Module ℝ T] (k : Option CKind) (n : ℕ) (b0 : BaseR2r)
    (hb : newR2r k n = ok b0) (hs : RunsSolve k n) (hk : k ≠ some .dirichletNeumann) :
    Symmetric (b0.toBase T) (fun j => n - 1 - j) (fun i => (-1) ^ i) := by
  have ln : (b0.toBase T).lenPhys = n := by
    cases k with
    | none =>
      obtain ⟨-, rfl⟩ := chebyshev_inv hb
      rfl
    | some c =>
      obtain ⟨c0, hc, rfl⟩ := composite_inv hb
      exact (Compo.wf_of_new hc).n_eq
  have hrun : ∀ x out out', x.length = (b0.toBase T).lenPhys → out.length = (b0.toBase T).lenSpec →
      out'.length = (b0.toBase T).lenSpec →
      ∃ X, (b0.toBase T).forwardSlice x out = ok X ∧ (b0.toBase T).forwardSlice x.reverse out' = ok (alternate X) := by
    cases k with
    | none =>
      obtain ⟨hn, rfl⟩ := chebyshev_inv hb
      intro x out out' hx ho ho'
      exact C89_forward_mirror n ⟨n, n⟩ (cheb_new_ok hn) x out out' hx ho ho'
    | some c =>
      obtain ⟨c0, hc, rfl⟩ := composite_inv hb
      intro x out out' hx ho ho'
      exact C89_composite_forward_mirror c (fun e => hk (by rw [e])) n c0 hc hs x out out' hx ho ho'
  have hlin : LinOp ℝ (b0.toBase T).forwardSlice (b0.toBase T).lenPhys (b0.toBase T).lenSpec := r2r_forward_lin hb hs
  refine symmetric_of _ _ _ List.reverse alternate (fun j hj => by rw [ln] at *; omega) (fun x => x.length_reverse)
    (fun x hx j hj => ?_) (fun X _ i _ => by rw [nth_alternate' ℝ, smul_eq_mul]) (fwd_len hlin) hrun
  rw [nth_reverse x (by omega), hx, ln]

/-- C89: shifting the data of a complex Fourier base by `s` grid points multiplies coefficient `k` by
`exp (i k 2πs/n)`. -/
theorem C89_symmetric_c2c (n s : ℕ) (b : Base ℂ ℂ ℂ) (hb : IsC2c n b) :
    Symmetric b (fun j => (j + s) % n) (fun k => Complex.exp (Complex.I * k * ((2 * Real.pi * s / n : ℝ) : ℂ))) := by
  have hlin := hb.fwdLin
  obtain ⟨hn, b0, hb0, rfl⟩ := hb
  obtain rfl := c2c_inv hb0
  refine symmetric_of _ _ _ (fun x => x.rotate s) (turn (2 * Real.pi * s / n)) (fun j _ => Nat.mod_lt _ hn)
    (fun x => List.length_rotate ..) (fun x hx j hj => ?_) (fun X hX k hk => ?_) (fwd_len hlin)
    (fun x out out' hx ho ho' => C89_c2c_shift n hn ⟨n, n⟩ rfl x out out' hx ho ho' s)
  · rw [nth_rotate x s (by omega), hx]; rfl
  · exact nth_turn _ _ (by omega)

/-- C89: the same for a real Fourier base. -/
theorem C89_symmetric_r2c (n s : ℕ) (b : Base ℝ ℂ ℂ) (hb : IsR2c n b) :
    Symmetric b (fun j => (j + s) % n) (fun k => Complex.exp (Complex.I * k * ((2 * Real.pi * s / n : ℝ) : ℂ))) := by
  have hlin := hb.fwdLin
  obtain ⟨hn, b0, hb0, rfl⟩ := hb
  obtain rfl := r2c_inv hb0
  refine symmetric_of _ _ _ (fun x => x.rotate s) (turn (2 * Real.pi * s / n)) (fun j _ => Nat.mod_lt _ hn)
    (fun x => List.length_rotate ..) (fun x hx j hj => ?_) (fun X hX k hk => ?_) (fwd_len hlin)
    (fun x out out' hx ho ho' => C89_r2c_shift n hn ⟨n, n / 2 + 1⟩ rfl x out out' hx ho ho' s)
  · rw [nth_rotate x s (by omega), hx]; rfl
  · exact nth_turn _ _ (by omega)

/-! ### All kinds of spaces -/

/-- C89 for the four kinds of two-dimensional spaces. -/
theorem C89_spaces2 (n0 n1 : ℕ) :
    (∀ sp : Space2 ℝ ℝ ℝ ℝ, IsR2r sp.base0 → IsR2r sp.base1 → SymmetricSpace2 sp) ∧
    (∀ sp : Space2 ℝ ℝ ℂ ℂ, IsR2c n0 sp.base0 → IsR2r sp.base1 → SymmetricSpace2 sp) ∧
    (∀ sp : Space2 ℝ ℂ ℂ ℂ, IsC2c n0 sp.base0 → IsR2c n1 sp.base1 → SymmetricSpace2 sp) ∧
    (∀ sp : Space2 ℂ ℂ ℂ ℂ, IsC2c n0 sp.base0 → IsC2c n1 sp.base1 → SymmetricSpace2 sp) :=
  ⟨fun sp h0 h1 => C89_space2 (R := ℝ) sp h0.fwdLin h1.fwdLin,
    fun sp h0 h1 => C89_space2 (R := ℝ) sp h0.fwdLin h1.fwdLin,
    fun sp h0 h1 => C89_space2 (R := ℝ) sp h0.fwdLin h1.fwdLin,
    fun sp h0 h1 => C89_space2 (R := ℂ) sp h0.fwdLin h1.fwdLin⟩

/-- C89 for the five kinds of three-dimensional spaces. -/
theorem C89_spaces3 (n0 n1 n2 : ℕ) :
    (∀ sp : Space3 ℝ ℝ ℝ ℝ ℝ, IsR2r sp.base0 → IsR2r sp.base1 → IsR2r sp.base2 → SymmetricSpace3 sp) ∧
    (∀ sp : Space3 ℝ ℝ ℝ ℂ ℂ, IsR2c n0 sp.base0 → IsR2r sp.base1 → IsR2r sp.base2 → SymmetricSpace3 sp) ∧
    (∀ sp : Space3 ℝ ℝ ℂ ℂ ℂ, IsC2c n0 sp.base0 → IsR2c n1 sp.base1 → IsR2r sp.base2 → SymmetricSpace3 sp) ∧
    (∀ sp : Space3 ℝ ℂ ℂ ℂ ℂ, IsC2c n0 sp.base0 → IsC2c n1 sp.base1 → IsR2c n2 sp.base2 → SymmetricSpace3 sp) ∧
    (∀ sp : Space3 ℂ ℂ ℂ ℂ ℂ, IsC2c n0 sp.base0 → IsC2c n1 sp.base1 → IsC2c n2 sp.base2 → SymmetricSpace3 sp) :=
  ⟨fun sp h0 h1 h2 => C89_space3 (R := ℝ) sp h0.fwdLin h1.fwdLin h2.fwdLin,
    fun sp h0 h1 h2 => C89_space3 (R := ℝ) sp h0.fwdLin h1.fwdLin h2.fwdLin,
    fun sp h0 h1 h2 => C89_space3 (R := ℝ) sp h0.fwdLin h1.fwdLin h2.fwdLin,
    fun sp h0 h1 h2 => C89_space3 (R := ℝ) sp h0.fwdLin h1.fwdLin h2.fwdLin,
    fun sp h0 h1 h2 => C89_space3 (R := ℂ) sp h0.fwdLin h1.fwdLin h2.fwdLin⟩

/-- The hypotheses are met: on a 6 × 5 grid, Fourier × Chebyshev, data shifted by two points along the periodic axis
and mirrored along the other. -/
example : ∃ (sp : Space2 ℝ ℝ ℂ ℂ) (a a' : Arr ℝ), IsR2c 6 sp.base0 ∧ IsR2r sp.base1 ∧ Good a sp.shapePhysical ∧
    Good a' sp.shapePhysical ∧
    Symmetric sp.base0 (fun j => (j + 2) % 6)
      (fun k => Complex.exp (Complex.I * k * ((2 * Real.pi * (2 : ℕ) / (6 : ℕ) : ℝ) : ℂ))) ∧
    Symmetric sp.base1 (fun j => 5 - 1 - j) (fun i => (-1) ^ i) ∧ at_ a [0, 0] ≠ at_ a [2, 4] ∧
    ∀ i < 6, ∀ j < 5, at_ a' [i, j] = at_ a [(i + 2) % 6, 5 - 1 - j] := by
  obtain ⟨b0, hb0, l0, -, -⟩ := isR2c_exists (n := 6) (by norm_num)
  obtain ⟨b1, hb1⟩ := newR2r_exists none 5 (by norm_num) (by rintro c ⟨⟩)
  have l1 : (b1.toBase ℂ).lenPhys = 5 := by
    obtain ⟨-, rfl⟩ := chebyshev_inv hb1
    rfl
  have at5 : ∀ (f : ℕ → ℕ → ℝ), ∀ i < 6, ∀ j < 5,
      at_ (⟨[6, 5], (List.range 30).map fun t => f (t / 5) (t % 5), true⟩ : Arr ℝ) [i, j] = f i j := by
    intro f i hi j hj
    have e : flat [6, 5] [i, j] = i * 5 + j := by simp [flat]
    show nth _ (flat [6, 5] [i, j]) = _
    rw [e, nth_map_range _ _ _ (by omega), show (i * 5 + j) / 5 = i by omega, show (i * 5 + j) % 5 = j by omega]
  have sh : Space2.shapePhysical (⟨b0, b1.toBase ℂ⟩ : Space2 ℝ ℝ ℂ ℂ) = [6, 5] := by
    show [b0.lenPhys, (b1.toBase ℂ).lenPhys] = _
    rw [l0, l1]
  refine ⟨⟨b0, b1.toBase ℂ⟩, ⟨[6, 5], (List.range 30).map fun t => ((t / 5 : ℕ) : ℝ), true⟩,
    ⟨[6, 5], (List.range 30).map fun t => (((t / 5 + 2) % 6 : ℕ) : ℝ), true⟩, hb0,
    ⟨none, 5, b1, hb1, trivial, trivial, rfl⟩, ?_, ?_, C89_symmetric_r2c 6 2 b0 hb0,
    C89_symmetric_mirror none 5 b1 hb1 trivial (by simp), ?_, ?_⟩
  · rw [sh]; exact ⟨by simp [Arr.WF], rfl, rfl⟩
  · rw [sh]; exact ⟨by simp [Arr.WF], rfl, rfl⟩
  · rw [at5 (fun i _ => (i : ℝ)) 0 (by norm_num) 0 (by norm_num), at5 (fun i _ => (i : ℝ)) 2 (by norm_num) 4 (by norm_num)]
    norm_num
  · intro i hi j hj
    rw [at5 (fun i _ => (((i + 2) % 6 : ℕ) : ℝ)) i hi j hj, at5 (fun i _ => (i : ℝ)) _ (by omega) _ (by omega)]

end Verif.Props
