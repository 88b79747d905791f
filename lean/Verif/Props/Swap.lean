/-
Property C111: exchanging the axes of a space exchanges the axes of its results.
-/
import Verif.Proof.Expand
import Verif.Props.Tensor
import Verif.Spec.Swap

namespace Verif.Props
open Res Spec Finset

section
variable {K : Type} [CommRing K]

/-- An operation on matrices that acts factor by factor. -/
def Acts2 (op : Arr K → Res (Arr K)) (f0 f1 : List K → List K → Res (List K)) (p0 p1 q0 q1 : ℕ) (c : K) : Prop :=
  ∀ (N : ℕ) (x y X Y : ℕ → List K), (∀ r < N, (x r).length = p0 ∧ (y r).length = p1 ∧ Returns f0 q0 (x r) (X r) ∧
      Returns f1 q1 (y r) (Y r)) →
    ∀ a, SumOf2 a p0 p1 N (fun r i j => nth (x r) i * nth (y r) j) →
      ∃ v, op a = ok v ∧ SumOf2 v q0 q1 N fun r k l => c * (nth (X r) k * nth (Y r) l)

def Acts3 (op : Arr K → Res (Arr K)) (f0 f1 f2 : List K → List K → Res (List K)) (p0 p1 p2 q0 q1 q2 : ℕ) (c : K) : Prop :=
  ∀ (N : ℕ) (x y z X Y Z : ℕ → List K), (∀ r < N, (x r).length = p0 ∧ (y r).length = p1 ∧ (z r).length = p2 ∧
      Returns f0 q0 (x r) (X r) ∧ Returns f1 q1 (y r) (Y r) ∧ Returns f2 q2 (z r) (Z r)) →
    ∀ a, SumOf3 a p0 p1 p2 N (fun r i j k => nth (x r) i * nth (y r) j * nth (z r) k) →
      ∃ v, op a = ok v ∧ SumOf3 v q0 q1 q2 N fun r k l m => c * (nth (X r) k * nth (Y r) l * nth (Z r) m)

theorem acts2_swap {op op' : Arr K → Res (Arr K)} {f0 f1 : List K → List K → Res (List K)} {p0 p1 q0 q1 : ℕ} {c : K}
    (h0 : LinOp K f0 p0 q0) (h1 : LinOp K f1 p1 q1) (F : Acts2 op f0 f1 p0 p1 q0 q1 c)
    (F' : Acts2 op' f1 f0 p1 p0 q1 q0 c) : Relates (Swapped p0 p1) (Swapped q0 q1) op op' := by
  intro a a' ⟨ga, ga', h⟩
  obtain ⟨x, y, lx, ly, ex⟩ := expand2 (R := K) p0 p1 a
  choose X eX using fun r => ret_ex h0 (lx r)
  choose Y eY using fun r => ret_ex h1 (ly r)
  obtain ⟨v, hv, sv⟩ := F p0 x y X Y (fun r _ => ⟨lx r, ly r, eX r, eY r⟩) a ⟨ga, fun i hi j hj => ex i hi j hj⟩
  obtain ⟨v', hv', sv'⟩ := F' p0 y x Y X (fun r _ => ⟨ly r, lx r, eY r, eX r⟩) a' ⟨ga', fun j hj i hi => by
    rw [h i hi j hj, ex i hi j hj]
    exact Finset.sum_congr rfl fun r _ => mul_comm _ _⟩
  refine ⟨v, v', hv, hv', sv.1, sv'.1, fun k hk l hl => ?_⟩
  rw [sv.2 k hk l hl, sv'.2 l hl k hk]
  exact Finset.sum_congr rfl fun r _ => by dsimp only; rw [mul_comm (nth (Y r) l)]

theorem acts3_swap01 {op op' : Arr K → Res (Arr K)} {f0 f1 f2 : List K → List K → Res (List K)}
    {p0 p1 p2 q0 q1 q2 : ℕ} {c : K} (h0 : LinOp K f0 p0 q0) (h1 : LinOp K f1 p1 q1) (h2 : LinOp K f2 p2 q2)
    (F : Acts3 op f0 f1 f2 p0 p1 p2 q0 q1 q2 c) (F' : Acts3 op' f1 f0 f2 p1 p0 p2 q1 q0 q2 c) :
    Relates (Swapped01 p0 p1 p2) (Swapped01 q0 q1 q2) op op' := by
  intro a a' ⟨ga, ga', h⟩
  obtain ⟨x, y, z, lx, ly, lz, ex⟩ := expand3 (R := K) p0 p1 p2 a
  choose X eX using fun r => ret_ex h0 (lx r)
  choose Y eY using fun r => ret_ex h1 (ly r)
  choose Z eZ using fun r => ret_ex h2 (lz r)
  obtain ⟨v, hv, sv⟩ := F (p0 * p1) x y z X Y Z (fun r _ => ⟨lx r, ly r, lz r, eX r, eY r, eZ r⟩) a
    ⟨ga, fun i hi j hj k hk => ex i hi j hj k hk⟩
  obtain ⟨v', hv', sv'⟩ := F' (p0 * p1) y x z Y X Z (fun r _ => ⟨ly r, lx r, lz r, eY r, eX r, eZ r⟩) a'
    ⟨ga', fun j hj i hi k hk => by
      rw [h i hi j hj k hk, ex i hi j hj k hk]
      exact Finset.sum_congr rfl fun r _ => by dsimp only; rw [smul_eq_mul]; ring⟩
  refine ⟨v, v', hv, hv', sv.1, sv'.1, fun k hk l hl m hm => ?_⟩
  rw [sv.2 k hk l hl m hm, sv'.2 l hl k hk m hm]
  exact Finset.sum_congr rfl fun r _ => by dsimp only; ring

theorem acts3_swap12 {op op' : Arr K → Res (Arr K)} {f0 f1 f2 : List K → List K → Res (List K)}
    {p0 p1 p2 q0 q1 q2 : ℕ} {c : K} (h0 : LinOp K f0 p0 q0) (h1 : LinOp K f1 p1 q1) (h2 : LinOp K f2 p2 q2)
    (F : Acts3 op f0 f1 f2 p0 p1 p2 q0 q1 q2 c) (F' : Acts3 op' f0 f2 f1 p0 p2 p1 q0 q2 q1 c) :
    Relates (Swapped12 p0 p1 p2) (Swapped12 q0 q1 q2) op op' := by
  intro a a' ⟨ga, ga', h⟩
  obtain ⟨x, y, z, lx, ly, lz, ex⟩ := expand3 (R := K) p0 p1 p2 a
  choose X eX using fun r => ret_ex h0 (lx r)
  choose Y eY using fun r => ret_ex h1 (ly r)
  choose Z eZ using fun r => ret_ex h2 (lz r)
  obtain ⟨v, hv, sv⟩ := F (p0 * p1) x y z X Y Z (fun r _ => ⟨lx r, ly r, lz r, eX r, eY r, eZ r⟩) a
    ⟨ga, fun i hi j hj k hk => ex i hi j hj k hk⟩
  obtain ⟨v', hv', sv'⟩ := F' (p0 * p1) x z y X Z Y (fun r _ => ⟨lx r, lz r, ly r, eX r, eZ r, eY r⟩) a'
    ⟨ga', fun i hi k hk j hj => by
      rw [h i hi j hj k hk, ex i hi j hj k hk]
      exact Finset.sum_congr rfl fun r _ => by dsimp only; rw [smul_eq_mul]; ring⟩
  refine ⟨v, v', hv, hv', sv.1, sv'.1, fun k hk l hl m hm => ?_⟩
  rw [sv.2 k hk l hl m hm, sv'.2 k hk m hm l hl]
  exact Finset.sum_congr rfl fun r _ => by dsimp only; ring

end

section
variable {K : Type} [CommRing K] [Algebra ℝ K]

/-- The five operations of a base are linear. -/
structure AllLin (b : Base K K K) : Prop where
  fwd : LinOp K b.forwardSlice b.lenPhys b.lenSpec
  bwd : LinOp K b.backwardSlice b.lenSpec b.lenPhys
  toO : LinOp K b.toOrthoSlice b.lenSpec b.lenOrth
  fromO : LinOp K b.fromOrthoSlice b.lenOrth b.lenSpec
  grad : ∀ d, LinOp K (fun v out => b.gradientSlice v out d) b.lenSpec b.lenOrth

theorem mapid (l : List K) : l.map (algebraMap K K) = l := List.map_id l
theorem mapid2 (l : List K) : (l.map fun t => algebraMap K K (algebraMap K K t)) = l := List.map_id l

theorem sumOf_one {a : Arr K} {n0 n1 N : ℕ} {t t' : ℕ → ℕ → ℕ → K} (h : SumOf2 a n0 n1 N t)
    (e : ∀ r k l, t r k l = t' r k l) : SumOf2 a n0 n1 N t' :=
  ⟨h.1, fun i hi j hj => (h.2 i hi j hj).trans (Finset.sum_congr rfl fun r _ => e r i j)⟩

theorem sumOf3_one {a : Arr K} {n0 n1 n2 N : ℕ} {t t' : ℕ → ℕ → ℕ → ℕ → K} (h : SumOf3 a n0 n1 n2 N t)
    (e : ∀ r k l m, t r k l m = t' r k l m) : SumOf3 a n0 n1 n2 N t' :=
  ⟨h.1, fun i hi j hj k hk => (h.2 i hi j hj k hk).trans (Finset.sum_congr rfl fun r _ => e r i j k)⟩

theorem acts2_of (sp : Space2 K K K K) (h0 : AllLin sp.base0) (h1 : AllLin sp.base1) :
    Acts2 sp.forward sp.base0.forwardSlice sp.base1.forwardSlice sp.base0.lenPhys sp.base1.lenPhys
        sp.base0.lenSpec sp.base1.lenSpec 1 ∧
      Acts2 sp.backward sp.base0.backwardSlice sp.base1.backwardSlice sp.base0.lenSpec sp.base1.lenSpec
        sp.base0.lenPhys sp.base1.lenPhys 1 ∧
      Acts2 sp.toOrtho sp.base0.toOrthoSlice sp.base1.toOrthoSlice sp.base0.lenSpec sp.base1.lenSpec
        sp.base0.lenOrth sp.base1.lenOrth 1 ∧
      Acts2 sp.fromOrtho sp.base0.fromOrthoSlice sp.base1.fromOrthoSlice sp.base0.lenOrth sp.base1.lenOrth
        sp.base0.lenSpec sp.base1.lenSpec 1 ∧
      ∀ d0 d1 s, (s ≠ none → d0 < 2 ^ 31 ∧ d1 < 2 ^ 31) → scale2 d0 d1 s ≠ 0 →
        Acts2 (fun v => sp.gradient v d0 d1 s) (fun v out => sp.base0.gradientSlice v out d0)
          (fun v out => sp.base1.gradientSlice v out d1) sp.base0.lenSpec sp.base1.lenSpec
          sp.base0.lenOrth sp.base1.lenOrth (algebraMap ℝ K (scale2 d0 d1 s)⁻¹) := by
  have S := C110_space2_spectral sp h0.toO h1.toO h0.fromO h1.fromO h0.grad h1.grad
  refine ⟨fun N x y X Y hx a ha => ?_, fun N x y X Y hx a ha => ?_, fun N x y X Y hx a ha => ?_,
    fun N x y X Y hx a ha => ?_, fun d0 d1 s hs hne N x y X Y hx a ha => ?_⟩
  · obtain ⟨v, hv, sv⟩ := C110_space2_forward (R := K) sp h0.fwd h1.fwd N x y X Y
      (fun r hr => by rw [mapid]; exact hx r hr) a ha
    exact ⟨v, hv, sumOf_one sv fun r k l => by rw [smul_eq_mul]; ring⟩
  · obtain ⟨v, hv, sv⟩ := C110_space2_backward (R := K) sp h0.bwd h1.bwd N X Y x y
      (fun r hr => by rw [mapid]; exact hx r hr) a (sumOf_one ha fun r k l => mul_comm _ _)
    exact ⟨v, hv, sumOf_one sv fun r k l => by rw [smul_eq_mul]; ring⟩
  · obtain ⟨v, hv, sv⟩ := S.toOrtho N x y X Y hx a ha
    exact ⟨v, hv, sumOf_one sv fun r k l => by ring⟩
  · obtain ⟨v, hv, sv⟩ := S.fromOrtho N x y X Y hx a ha
    exact ⟨v, hv, sumOf_one sv fun r k l => by ring⟩
  · obtain ⟨v, hv, sv⟩ := S.gradient d0 d1 s hs hne N x y X Y hx a ha
    exact ⟨v, hv, sumOf_one sv fun r k l => by rw [Algebra.smul_def]⟩

theorem acts3_of (sp : Space3 K K K K K) (h0 : AllLin sp.base0) (h1 : AllLin sp.base1) (h2 : AllLin sp.base2) :
    Acts3 sp.forward sp.base0.forwardSlice sp.base1.forwardSlice sp.base2.forwardSlice sp.base0.lenPhys
        sp.base1.lenPhys sp.base2.lenPhys sp.base0.lenSpec sp.base1.lenSpec sp.base2.lenSpec 1 ∧
      Acts3 sp.backward sp.base0.backwardSlice sp.base1.backwardSlice sp.base2.backwardSlice sp.base0.lenSpec
        sp.base1.lenSpec sp.base2.lenSpec sp.base0.lenPhys sp.base1.lenPhys sp.base2.lenPhys 1 ∧
      Acts3 sp.toOrtho sp.base0.toOrthoSlice sp.base1.toOrthoSlice sp.base2.toOrthoSlice sp.base0.lenSpec
        sp.base1.lenSpec sp.base2.lenSpec sp.base0.lenOrth sp.base1.lenOrth sp.base2.lenOrth 1 ∧
      Acts3 sp.fromOrtho sp.base0.fromOrthoSlice sp.base1.fromOrthoSlice sp.base2.fromOrthoSlice sp.base0.lenOrth
        sp.base1.lenOrth sp.base2.lenOrth sp.base0.lenSpec sp.base1.lenSpec sp.base2.lenSpec 1 := by
  have S := C110_space3_spectral sp h0.toO h1.toO h2.toO h0.fromO h1.fromO h2.fromO
  refine ⟨fun N x y z X Y Z hx a ha => ?_, fun N x y z X Y Z hx a ha => ?_, fun N x y z X Y Z hx a ha => ?_,
    fun N x y z X Y Z hx a ha => ?_⟩
  · obtain ⟨v, hv, sv⟩ := C110_space3_forward (R := K) sp h0.fwd h1.fwd h2.fwd N x y z X Y Z
      (fun r hr => by rw [mapid, mapid2]; exact hx r hr) a ha
    exact ⟨v, hv, sumOf3_one sv fun r k l m => by rw [smul_eq_mul, smul_eq_mul]; ring⟩
  · obtain ⟨v, hv, sv⟩ := C110_space3_backward (R := K) sp h0.bwd h1.bwd h2.bwd N X Y Z x y z
      (fun r hr => by rw [mapid, mapid2]; exact hx r hr) a
      (sumOf3_one ha fun r k l m => by rw [smul_eq_mul, smul_eq_mul]; ring)
    exact ⟨v, hv, sumOf3_one sv fun r k l m => by rw [smul_eq_mul]; ring⟩
  · obtain ⟨v, hv, sv⟩ := S.toOrtho N x y z X Y Z hx a ha
    exact ⟨v, hv, sumOf3_one sv fun r k l m => by ring⟩
  · obtain ⟨v, hv, sv⟩ := S.fromOrtho N x y z X Y Z hx a ha
    exact ⟨v, hv, sumOf3_one sv fun r k l m => by ring⟩

theorem scale2_swap (d0 d1 : ℕ) (s : Option (ℝ × ℝ)) : scale2 d1 d0 (s.map Prod.swap) = scale2 d0 d1 s := by
  cases s with
  | none => rfl
  | some p => exact mul_comm _ _

/-- C111 in two dimensions, for any bases whose operations are linear. -/
theorem C111_space2 (sp sp' : Space2 K K K K) (h0 : AllLin sp.base0) (h1 : AllLin sp.base1)
    (e0 : sp'.base0 = sp.base1) (e1 : sp'.base1 = sp.base0) : SameUpToSwap sp sp' := by
  obtain ⟨F, B, T, O, G⟩ := acts2_of sp h0 h1
  obtain ⟨F', B', T', O', G'⟩ := acts2_of sp' (e0 ▸ h1) (e1 ▸ h0)
  rw [e0, e1] at F' B' T' O' G'
  refine ⟨acts2_swap h0.fwd h1.fwd F F', acts2_swap h0.bwd h1.bwd B B', acts2_swap h0.toO h1.toO T T',
    acts2_swap h0.fromO h1.fromO O O', fun d0 d1 s hs hne => acts2_swap (h0.grad d0) (h1.grad d1) (G d0 d1 s hs hne) ?_⟩
  have := G' d1 d0 (s.map Prod.swap) (fun h => by
    have := hs (by rintro rfl; exact h rfl)
    exact ⟨this.2, this.1⟩) (by rw [scale2_swap]; exact hne)
  rwa [scale2_swap] at this

/-- C111 in three dimensions: exchanging the first two, or the last two, axes. -/
theorem C111_space3 (sp sp' : Space3 K K K K K) (h0 : AllLin sp.base0) (h1 : AllLin sp.base1) (h2 : AllLin sp.base2) :
    (sp'.base0 = sp.base1 → sp'.base1 = sp.base0 → sp'.base2 = sp.base2 → SameUpTo Swapped01 sp sp') ∧
    (sp'.base0 = sp.base0 → sp'.base1 = sp.base2 → sp'.base2 = sp.base1 → SameUpTo Swapped12 sp sp') := by
  obtain ⟨F, B, T, O⟩ := acts3_of sp h0 h1 h2
  constructor
  · intro e0 e1 e2
    obtain ⟨F', B', T', O'⟩ := acts3_of sp' (e0 ▸ h1) (e1 ▸ h0) (e2 ▸ h2)
    rw [e0, e1, e2] at F' B' T' O'
    exact ⟨acts3_swap01 h0.fwd h1.fwd h2.fwd F F', acts3_swap01 h0.bwd h1.bwd h2.bwd B B',
      acts3_swap01 h0.toO h1.toO h2.toO T T', acts3_swap01 h0.fromO h1.fromO h2.fromO O O'⟩
  · intro e0 e1 e2
    obtain ⟨F', B', T', O'⟩ := acts3_of sp' (e0 ▸ h0) (e1 ▸ h2) (e2 ▸ h1)
    rw [e0, e1, e2] at F' B' T' O'
    exact ⟨acts3_swap12 h0.fwd h1.fwd h2.fwd F F', acts3_swap12 h0.bwd h1.bwd h2.bwd B B',
      acts3_swap12 h0.toO h1.toO h2.toO T T', acts3_swap12 h0.fromO h1.fromO h2.fromO O O'⟩

theorem scale3_swap01 (d0 d1 d2 : ℕ) (s : Option (ℝ × ℝ × ℝ)) :
    scale3 d1 d0 d2 (s.map fun p => (p.2.1, p.1, p.2.2)) = scale3 d0 d1 d2 s := by
  cases s with
  | none => rfl
  | some p => show p.2.1 ^ d1 * p.1 ^ d0 * p.2.2 ^ d2 = p.1 ^ d0 * p.2.1 ^ d1 * p.2.2 ^ d2; ring

theorem scale3_swap12 (d0 d1 d2 : ℕ) (s : Option (ℝ × ℝ × ℝ)) :
    scale3 d0 d2 d1 (s.map fun p => (p.1, p.2.2, p.2.1)) = scale3 d0 d1 d2 s := by
  cases s with
  | none => rfl
  | some p => show p.1 ^ d0 * p.2.2 ^ d2 * p.2.1 ^ d1 = p.1 ^ d0 * p.2.1 ^ d1 * p.2.2 ^ d2; ring

/-- C111, `gradient` in three dimensions, in a space of three equal bases (the case in which it differentiates along
the third axis with the right base, see C40). -/
theorem C111_space3_gradient (sp : Space3 K K K K K) (h : AllLin sp.base0) (e1 : sp.base1 = sp.base0)
    (e2 : sp.base2 = sp.base0) (d0 d1 d2 : ℕ) (s : Option (ℝ × ℝ × ℝ))
    (hs : s ≠ none → d0 < 2 ^ 31 ∧ d1 < 2 ^ 31 ∧ d2 < 2 ^ 31) (hne : scale3 d0 d1 d2 s ≠ 0) :
    Relates (Swapped01 sp.base0.lenSpec sp.base0.lenSpec sp.base0.lenSpec)
      (Swapped01 sp.base0.lenOrth sp.base0.lenOrth sp.base0.lenOrth) (fun v => sp.gradient v d0 d1 d2 s)
      (fun v => sp.gradient v d1 d0 d2 (s.map fun p => (p.2.1, p.1, p.2.2))) ∧
    Relates (Swapped12 sp.base0.lenSpec sp.base0.lenSpec sp.base0.lenSpec)
      (Swapped12 sp.base0.lenOrth sp.base0.lenOrth sp.base0.lenOrth) (fun v => sp.gradient v d0 d1 d2 s)
      (fun v => sp.gradient v d0 d2 d1 (s.map fun p => (p.1, p.2.2, p.2.1))) := by
  have A : ∀ d0 d1 d2 s, (s ≠ none → d0 < 2 ^ 31 ∧ d1 < 2 ^ 31 ∧ d2 < 2 ^ 31) → scale3 d0 d1 d2 s ≠ 0 →
      Acts3 (fun v => sp.gradient v d0 d1 d2 s) (fun v out => sp.base0.gradientSlice v out d0)
        (fun v out => sp.base0.gradientSlice v out d1) (fun v out => sp.base0.gradientSlice v out d2)
        sp.base0.lenSpec sp.base0.lenSpec sp.base0.lenSpec sp.base0.lenOrth sp.base0.lenOrth sp.base0.lenOrth
        (algebraMap ℝ K (scale3 d0 d1 d2 s)⁻¹) := by
    intro d0 d1 d2 s hs hne N x y z X Y Z hx a ha
    have G := C110_space3_gradient sp h.grad (e1 ▸ h.grad) (e2.trans e1.symm ▸ rfl)
    unfold GradientFactors3 at G
    rw [e1, e2] at G
    obtain ⟨v, hv, sv⟩ := G d0 d1 d2 s hs hne N x y z X Y Z hx a ha
    exact ⟨v, hv, sumOf3_one sv fun r k l m => by rw [Algebra.smul_def]⟩
  constructor
  · refine acts3_swap01 (h.grad d0) (h.grad d1) (h.grad d2) (A d0 d1 d2 s hs hne) ?_
    have := A d1 d0 d2 (s.map fun p => (p.2.1, p.1, p.2.2)) (fun h => by
      have := hs (by rintro rfl; exact h rfl)
      exact ⟨this.2.1, this.1, this.2.2⟩) (by rw [scale3_swap01]; exact hne)
    rwa [scale3_swap01] at this
  · refine acts3_swap12 (h.grad d0) (h.grad d1) (h.grad d2) (A d0 d1 d2 s hs hne) ?_
    have := A d0 d2 d1 (s.map fun p => (p.1, p.2.2, p.2.1)) (fun h => by
      have := hs (by rintro rfl; exact h rfl)
      exact ⟨this.1, this.2.2, this.2.1⟩) (by rw [scale3_swap12]; exact hne)
    rwa [scale3_swap12] at this

end

theorem allLin_r2r {b : Base ℝ ℝ ℝ} (h : IsFullR2r b) : AllLin b := by
  have r := isFull_isR2r h
  exact ⟨r.fwdLin, r.bwdLin, r.toLin, r.fromLin, isFull_gradLin h⟩

theorem allLin_c2c {n : ℕ} {b : Base ℂ ℂ ℂ} (h : IsC2c n b) : AllLin b :=
  ⟨h.fwdLin, h.bwdLin, h.toLin, h.fromLin, h.gradLin⟩

/-- C111 for the two-dimensional spaces of two real bases and of two complex Fourier bases. -/
theorem C111_spaces2 (n0 n1 : ℕ) :
    (∀ sp sp' : Space2 ℝ ℝ ℝ ℝ, IsFullR2r sp.base0 → IsFullR2r sp.base1 →
      sp'.base0 = sp.base1 → sp'.base1 = sp.base0 → SameUpToSwap sp sp') ∧
    (∀ sp sp' : Space2 ℂ ℂ ℂ ℂ, IsC2c n0 sp.base0 → IsC2c n1 sp.base1 →
      sp'.base0 = sp.base1 → sp'.base1 = sp.base0 → SameUpToSwap sp sp') :=
  ⟨fun sp sp' h0 h1 => C111_space2 sp sp' (allLin_r2r h0) (allLin_r2r h1),
    fun sp sp' h0 h1 => C111_space2 sp sp' (allLin_c2c h0) (allLin_c2c h1)⟩

/-- C111 for the three-dimensional spaces of three real bases and of three complex Fourier bases. The two exchanges
generate all orders of the axes. -/
theorem C111_spaces3 (n0 n1 n2 : ℕ) :
    (∀ sp sp' : Space3 ℝ ℝ ℝ ℝ ℝ, IsFullR2r sp.base0 → IsFullR2r sp.base1 → IsFullR2r sp.base2 →
      (sp'.base0 = sp.base1 → sp'.base1 = sp.base0 → sp'.base2 = sp.base2 → SameUpTo Swapped01 sp sp') ∧
      (sp'.base0 = sp.base0 → sp'.base1 = sp.base2 → sp'.base2 = sp.base1 → SameUpTo Swapped12 sp sp')) ∧
    (∀ sp sp' : Space3 ℂ ℂ ℂ ℂ ℂ, IsC2c n0 sp.base0 → IsC2c n1 sp.base1 → IsC2c n2 sp.base2 →
      (sp'.base0 = sp.base1 → sp'.base1 = sp.base0 → sp'.base2 = sp.base2 → SameUpTo Swapped01 sp sp') ∧
      (sp'.base0 = sp.base0 → sp'.base1 = sp.base2 → sp'.base2 = sp.base1 → SameUpTo Swapped12 sp sp')) :=
  ⟨fun sp sp' h0 h1 h2 => C111_space3 sp sp' (allLin_r2r h0) (allLin_r2r h1) (allLin_r2r h2),
    fun sp sp' h0 h1 h2 => C111_space3 sp sp' (allLin_c2c h0) (allLin_c2c h1) (allLin_c2c h2)⟩

/-- The hypotheses are met: `chebyshev(5) × cheb_dirichlet(6)` and `cheb_dirichlet(6) × chebyshev(5)`, and the matrix
0, 1, …, 29 with its transpose. -/
example : ∃ (sp sp' : Space2 ℝ ℝ ℝ ℝ) (a a' : Arr ℝ), IsFullR2r sp.base0 ∧ IsFullR2r sp.base1 ∧
    sp'.base0 = sp.base1 ∧ sp'.base1 = sp.base0 ∧ sp.base0.lenSpec = 5 ∧ sp.base1.lenSpec = 4 ∧
    Swapped sp.base0.lenPhys sp.base1.lenPhys a a' ∧ at_ a [1, 0] = 6 ∧ at_ a' [1, 0] = 1 := by
  obtain ⟨b0, hb0⟩ := newR2r_exists none 5 (by decide) (by rintro c ⟨⟩)
  obtain ⟨b1, hb1⟩ := newR2r_exists (some .dirichlet) 6 (by decide) (by rintro c ⟨⟩; decide)
  have h0 : IsFullR2r (b0.toBase ℝ) := ⟨none, 5, b0, hb0, trivial, trivial, (by decide : 3 ≤ 5), rfl⟩
  have h1 : IsFullR2r (b1.toBase ℝ) := ⟨some .dirichlet, 6, b1, hb1, Or.inl rfl, by show 5 ≤ 6; decide, Or.inl rfl, rfl⟩
  have l0 : (b0.toBase ℝ).lenPhys = 5 ∧ (b0.toBase ℝ).lenSpec = 5 := by
    obtain ⟨-, rfl⟩ := chebyshev_inv hb0
    exact ⟨rfl, rfl⟩
  have l1 : (b1.toBase ℝ).lenPhys = 6 ∧ (b1.toBase ℝ).lenSpec = 4 := by
    obtain ⟨c, hc, rfl⟩ := composite_inv hb1
    have hw := Compo.wf_of_new hc
    exact ⟨hw.n_eq, by show c.m = 4; rw [hw.m_eq]; rfl⟩
  have ea : ∀ i < 5, ∀ j < 6,
      at_ (⟨[5, 6], (List.range 30).map fun t : ℕ => (t : ℝ), true⟩ : Arr ℝ) [i, j] = ((i * 6 + j : ℕ) : ℝ) := by
    intro i hi j hj
    have e : flat [5, 6] [i, j] = i * 6 + j := by simp [flat]
    show nth _ (flat [5, 6] [i, j]) = _
    rw [e, nth_map_range _ _ _ (by omega)]
  have ea' : ∀ i < 5, ∀ j < 6, at_ (⟨[6, 5], (List.range 30).map fun t : ℕ => ((t % 5 * 6 + t / 5 : ℕ) : ℝ), true⟩ : Arr ℝ)
      [j, i] = ((i * 6 + j : ℕ) : ℝ) := by
    intro i hi j hj
    have e : flat [6, 5] [j, i] = j * 5 + i := by simp [flat]
    show nth _ (flat [6, 5] [j, i]) = _
    rw [e, nth_map_range _ _ _ (by omega), show (j * 5 + i) % 5 = i by omega, show (j * 5 + i) / 5 = j by omega]
  refine ⟨⟨b0.toBase ℝ, b1.toBase ℝ⟩, ⟨b1.toBase ℝ, b0.toBase ℝ⟩,
    ⟨[5, 6], (List.range 30).map fun t : ℕ => (t : ℝ), true⟩,
    ⟨[6, 5], (List.range 30).map fun t : ℕ => ((t % 5 * 6 + t / 5 : ℕ) : ℝ), true⟩, h0, h1, rfl, rfl, l0.2, l1.2, ?_, ?_, ?_⟩
  · show Swapped (b0.toBase ℝ).lenPhys (b1.toBase ℝ).lenPhys _ _
    rw [l0.1, l1.1]
    exact ⟨⟨by simp [Arr.WF], rfl, rfl⟩, ⟨by simp [Arr.WF], rfl, rfl⟩, fun i hi j hj => by rw [ea i hi j hj, ea' i hi j hj]⟩
  · rw [ea 1 (by decide) 0 (by decide)]; norm_num
  · rw [ea' 0 (by decide) 1 (by decide)]; norm_num

end Verif.Props
