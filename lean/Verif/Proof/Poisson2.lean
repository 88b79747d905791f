/-
The two-dimensional tau equations: every axis is described by a regular matrix `Q`, the coefficients
`N` of its functions and the coefficients `M` of their second derivatives.
-/
import Verif.Props.Tau
import Verif.Spec.Poisson2
import Mathlib.LinearAlgebra.Matrix.NonsingularInverse
import Mathlib.LinearAlgebra.Matrix.ToLin

namespace Verif
open Res Spec Finset Props Polynomial

/-- the block of a matrix with `r` rows and `c` columns -/
def toM (A : Mat ℝ) (r c : ℕ) : Matrix (Fin r) (Fin c) ℝ := Matrix.of fun i j => A.get i j

/-- column `k` of a stencil as a polynomial -/
noncomputable def colPoly (S : Mat ℝ) (k : ℕ) : ℝ[X] :=
  ∑ i ∈ range S.rows, C (S.get i k) * Chebyshev.T ℝ (i : ℤ)

theorem colPoly_eval (S : Mat ℝ) (k : ℕ) (x : ℝ) : (colPoly S k).eval x = stencilFn S k x := by
  unfold colPoly stencilFn chebFn
  rw [eval_finset_sum]
  exact Finset.sum_congr rfl fun i _ => by rw [eval_mul, eval_C]

/-- one axis of the system -/
structure AxisTau (p s : ℕ) (S P I : Mat ℝ) (Q : Matrix (Fin p) (Fin p) ℝ)
    (M : Matrix (Fin p) (Fin s) ℝ) : Prop where
  srow : S.rows = p + 2
  scol : S.cols = s
  irow : I.rows = p
  pcol : P.cols = p + 2
  a : toM (matMul (matMul I P) S) p s = Q * toM S p s
  b : toM (matMul I S) p s = Q * M
  ip : ∀ i : Fin p, ∀ j < p + 2, (matMul I P).get i j = if h : j < p then Q i ⟨j, h⟩ else 0
  unit : IsUnit Q
  der : ∀ k : Fin s, derivative (derivative (colPoly S k)) = ∑ i : Fin p, C (M i k) * Chebyshev.T ℝ (i : ℕ)

/-- unit vector -/
def eVec (s k : ℕ) : List ℝ := (List.range s).map fun j => if j = k then 1 else 0

theorem nth_eVec {s k j : ℕ} (hj : j < s) : nth (eVec s k) j = if j = k then 1 else 0 := by
  unfold eVec; rw [nth_map_range _ _ _ hj]

theorem mulVec_unit (A : Mat ℝ) {k i : ℕ} (hk : k < A.cols) (hi : i < A.rows) :
    nth (mulVec A (eVec A.cols k)) i = A.get i k := by
  rw [nth_mulVec _ _ hi, Finset.sum_eq_single k]
  · rw [nth_eVec hk, if_pos rfl]; simp
  · intro j hj hjk
    rw [nth_eVec (Finset.mem_range.mp hj), if_neg hjk, smul_zero]
  · intro h; exact absurd (Finset.mem_range.mpr hk) h

theorem nth_app_lt {l m : List ℝ} {i : ℕ} (h : i < l.length) : nth (l ++ m) i = nth l i := by
  unfold nth
  rw [List.getD_eq_getElem?_getD, List.getD_eq_getElem?_getD, List.getElem?_append_left h]

theorem nth_app_add {l m : List ℝ} {p : ℕ} (h : l.length = p) (i : ℕ) : nth (l ++ m) (p + i) = nth m i := by
  unfold nth
  rw [List.getD_eq_getElem?_getD, List.getD_eq_getElem?_getD, List.getElem?_append_right (by omega), h,
    Nat.add_sub_cancel_left]

theorem nth_rep0 (m i : ℕ) : nth (List.replicate m (0 : ℝ)) i = 0 := by
  unfold nth; rw [List.getD_eq_getElem?_getD, List.getElem?_replicate]; split <;> rfl

theorem chebPoly_app {l : List ℝ} {p : ℕ} (h : l.length = p) (a c : ℝ) : chebPoly ℝ (l ++ [a, c])
    = chebPoly ℝ l + C a * Chebyshev.T ℝ (p : ℕ) + C c * Chebyshev.T ℝ (p + 1 : ℕ) := by
  unfold chebPoly
  rw [List.length_append, show [a, c].length = 2 from rfl, h, Finset.sum_range_succ,
    Finset.sum_range_succ, nth_app_add h 1, show nth (l ++ [a, c]) p = a from nth_app_add h 0]
  show _ + _ + C c * _ = _
  congr 2
  refine Finset.sum_congr rfl fun i hi => ?_
  rw [nth_app_lt (by rw [h]; exact Finset.mem_range.mp hi)]

theorem axis_tau {o : Mode} {kind : CKind} {p : ℕ} {b : Compo ℝ} {S P I : Mat ℝ}
    (h : TauSetup o kind (p + 2) b S P I) :
    ∃ (Q : Matrix (Fin p) (Fin p) ℝ) (M : Matrix (Fin p) (Fin b.lenSpec) ℝ),
      AxisTau p b.lenSpec S P I Q M := by
  have hn := h.hn
  have hcol : ∀ k < b.lenSpec, chebPoly ℝ (mulVec S (eVec b.lenSpec k)) = colPoly S k := by
    intro k hk
    unfold chebPoly colPoly
    rw [mulVec_length]
    refine Finset.sum_congr rfl fun i hi => ?_
    rw [← h.r2, mulVec_unit S (by rw [h.r2]; exact hk) (Finset.mem_range.mp hi)]
  have hdeg : ∀ k, (colPoly S k).degree < ((p + 2 : ℕ) : WithBot ℕ) := by
    intro k
    unfold colPoly
    rw [h.r1]
    refine lt_of_le_of_lt (degree_sum_le _ _) ((Finset.sup_lt_iff (WithBot.bot_lt_coe _)).mpr fun i hi => ?_)
    refine lt_of_le_of_lt (degree_mul_le _ _) ?_
    rw [Chebyshev.degree_T]
    have := Finset.mem_range.mp hi
    calc (C (S.get i k)).degree + ((i : ℤ).natAbs : WithBot ℕ) ≤ 0 + ((i : ℤ).natAbs : WithBot ℕ) := by
          gcongr; exact degree_C_le
      _ < _ := by rw [zero_add]; simp only [Int.natAbs_natCast]; exact_mod_cast this
  choose g hgl hg using fun k => cheb_coeffs (n := p) (by omega) (derivative (derivative (colPoly S k)))
    (degree_derivative2 (n := p + 2) (by omega) (hdeg k))
  have ipcut : ∀ i < p, ∀ j, p ≤ j → j < p + 2 → (matMul I P).get i j = 0 := by
    intro i hi j hj hj2
    show ∑ l ∈ range I.cols, _ = _
    refine Finset.sum_eq_zero fun l hl => ?_
    rw [h.icol] at hl
    rw [h.cut l (Finset.mem_range.mp hl) j hj2 (by omega), mul_zero]
  have hmv : ∀ f : List ℝ, ∀ i < p, nth (mulVec (matMul I P) f) i
      = ∑ j : Fin p, (matMul I P).get i j * nth f j := by
    intro f i hi
    have hir : i < (matMul I P).rows := by show i < I.rows; rw [h.irow]; exact hi
    rw [nth_mulVec _ _ hir]
    show ∑ j ∈ range P.cols, _ = _
    rw [h.pcol, Finset.sum_range_succ, Finset.sum_range_succ, ipcut i hi p le_rfl (by omega),
      ipcut i hi (p + 1) (by omega) (by omega), zero_smul, zero_smul, add_zero, add_zero,
      Finset.sum_range]
    rfl
  refine ⟨toM (matMul I P) p p, Matrix.of fun i k => nth (g k) i, h.r1, h.r2, h.irow, h.pcol, ?_, ?_, ?_, ?_, ?_⟩
  · ext i k
    rw [Matrix.mul_apply]
    show ∑ j ∈ range P.cols, (matMul I P).get i j * S.get j k = _
    rw [h.pcol, Finset.sum_range_succ, Finset.sum_range_succ, ipcut i i.2 p le_rfl (by omega),
      ipcut i i.2 (p + 1) (by omega) (by omega), zero_mul, zero_mul, add_zero, add_zero, Finset.sum_range]
    rfl
  · ext i k
    have hf : (g k ++ [0, 0]).length = b.lenOrth := by rw [h.ho, List.length_append, hgl]; rfl
    have hpoly : chebPoly ℝ (g k ++ [0, 0]) = chebPoly ℝ (g k) := by
      rw [chebPoly_app (hgl k)]; simp
    have hs := (h.tau 0 (-1) (eVec b.lenSpec k) (g k ++ [0, 0]) (by simp [eVec]) hf).mpr
      ⟨0, 0, by rw [hpoly, hg, hcol k k.2]; simp⟩
    have := hs i (by rw [h.irow]; exact i.2)
    rw [zero_mul, zero_sub, neg_mul, one_mul, neg_neg, hmv _ i i.2] at this
    have e : nth (mulVec (matMul I S) (eVec b.lenSpec k)) i = (matMul I S).get i k := by
      have := mulVec_unit (matMul I S) (k := k) (i := i) (by show (k : ℕ) < S.cols; rw [h.r2]; exact k.2)
        (by show (i : ℕ) < I.rows; rw [h.irow]; exact i.2)
      rwa [show (matMul I S).cols = b.lenSpec from h.r2] at this
    rw [e] at this
    rw [Matrix.mul_apply]
    show (matMul I S).get i k = _
    rw [this]
    refine Finset.sum_congr rfl fun j _ => ?_
    rw [nth_app_lt (by rw [hgl]; exact j.2)]; rfl
  · intro i j hj
    split
    · rfl
    · exact ipcut i i.2 j (by omega) hj
  · rw [← Matrix.mulVec_injective_iff_isUnit]
    refine (injective_iff_map_eq_zero (Matrix.mulVecLin (toM (matMul I P) p p))).mpr fun y hy => ?_
    have hl : ∀ i : Fin p, nth (List.ofFn y ++ [0, 0]) i = y i := fun i => by
      rw [nth_app_lt (by simp)]
      unfold nth
      rw [List.getD_eq_getElem?_getD, List.getElem?_ofFn]
      simp
    have hs : SolvesHelmholtz S P I 0 0 (List.ofFn y ++ [0, 0]) (List.replicate b.lenSpec 0) := by
      intro i hi
      rw [h.irow] at hi
      rw [hmv _ i hi, zero_mul, zero_mul, sub_zero]
      refine (Eq.trans ?_ (congrFun hy ⟨i, hi⟩)).symm
      refine Finset.sum_congr rfl fun j _ => ?_
      rw [hl]; rfl
    obtain ⟨τ₁, τ₂, e⟩ := (h.tau 0 0 _ _ (by simp) (by rw [h.ho]; simp)).mp hs
    have e2 : chebPoly ℝ (List.ofFn y ++ [τ₁, τ₂]) = chebPoly ℝ (List.replicate (p + 2) 0) := by
      have z : chebPoly ℝ (List.replicate (p + 2) 0) = 0 := by
        unfold chebPoly
        exact Finset.sum_eq_zero fun i _ => by rw [nth_rep0, C_0, zero_mul]
      rw [z]
      rw [chebPoly_app List.length_ofFn] at e ⊢
      rw [show p + 2 - 2 = p by omega, show p + 2 - 1 = p + 1 by omega] at e
      simp only [C_0, zero_mul, sub_zero, add_zero] at e
      exact e.symm
    have e3 := chebPoly_ext (by simp) e2
    funext i
    have := congrArg (fun l => nth l i) e3
    have l1 : nth (List.ofFn y ++ [τ₁, τ₂]) i = y i := by
      rw [nth_app_lt (by simp)]
      unfold nth
      rw [List.getD_eq_getElem?_getD, List.getElem?_ofFn]
      simp
    rw [← l1, this, nth_rep0]; rfl
  · intro k
    rw [← hg]
    unfold chebPoly
    rw [hgl, Finset.sum_range]
    rfl

theorem chebPoly_mulVec (S : Mat ℝ) {s : ℕ} (hs : S.cols = s) (x : Fin s → ℝ) :
    chebPoly ℝ (mulVec S (List.ofFn x)) = ∑ k : Fin s, C (x k) * colPoly S k := by
  unfold chebPoly colPoly
  simp only [Finset.mul_sum]
  rw [Finset.sum_comm, mulVec_length]
  refine Finset.sum_congr rfl fun i hi => ?_
  rw [nth_mulVec _ _ (Finset.mem_range.mp hi), hs, Finset.sum_range, map_sum, Finset.sum_mul]
  refine Finset.sum_congr rfl fun k _ => ?_
  have : nth (List.ofFn x) k = x k := by
    unfold nth; rw [List.getD_eq_getElem?_getD, List.getElem?_ofFn]; simp
  rw [this, smul_eq_mul, C_mul]; ring

theorem wInt_TT_pos (i : ℕ) : 0 < wInt (Chebyshev.T ℝ (i : ℤ) ^ 2) := by
  refine lt_of_le_of_ne (wInt_sq_nonneg _) fun h => ?_
  have := congrArg (Polynomial.eval 1) (wInt_sq_zero h.symm)
  rw [Chebyshev.T_eval_one, eval_zero] at this
  exact one_ne_zero this

theorem wInt_T_sq (i : ℕ) : wInt (Chebyshev.T ℝ (i : ℤ) ^ 2) = Real.pi * chebWeight i := by
  unfold wInt chebWeight
  simp only [pow_two, eval_mul]
  split
  · next h =>
    subst h
    simp
  · next h =>
    have := Chebyshev.integral_T_real_mul_self_measureT_of_ne_zero (n := i) h
    rw [Chebyshev.integral_measureT_eq_integral_cos] at this
    rw [this]; ring

/-- the energy of an axis as a weighted integral -/
theorem axis_pair {o : Mode} {kind : CKind} {p : ℕ} {b : Compo ℝ} {S P I : Mat ℝ}
    (h : TauSetup o kind (p + 2) b S P I) {Q : Matrix (Fin p) (Fin p) ℝ}
    {M : Matrix (Fin p) (Fin b.lenSpec) ℝ} (ha : AxisTau p b.lenSpec S P I Q M) (x : Fin b.lenSpec → ℝ) :
    ∑ i : Fin p, wInt (Chebyshev.T ℝ ((i : ℕ) : ℤ) ^ 2) * ((toM S p b.lenSpec).mulVec x i * M.mulVec x i)
      = wInt (chebPoly ℝ (mulVec S (List.ofFn x)) * derivative (derivative (chebPoly ℝ (mulVec S (List.ofFn x))))) ∧
    ∀ i : Fin p, (toM S p b.lenSpec).mulVec x i = nth (mulVec S (List.ofFn x)) i := by
  set u := chebPoly ℝ (mulVec S (List.ofFn x)) with hu
  have hu2 : derivative (derivative u) = ∑ i : Fin p, C (M.mulVec x i) * Chebyshev.T ℝ ((i : ℕ) : ℤ) := by
    rw [hu, chebPoly_mulVec S h.r2, derivative_sum, derivative_sum]
    simp only [derivative_C_mul, ha.der, Finset.mul_sum]
    rw [Finset.sum_comm]
    refine Finset.sum_congr rfl fun i _ => ?_
    show _ = C (∑ k, M i k * x k) * _
    rw [map_sum, Finset.sum_mul]
    exact Finset.sum_congr rfl fun k _ => by rw [C_mul]; ring
  have hnth : ∀ i : Fin p, (toM S p b.lenSpec).mulVec x i = nth (mulVec S (List.ofFn x)) i := by
    intro i
    symm
    rw [nth_mulVec _ _ (by rw [h.r1]; omega), h.r2, Finset.sum_range]
    refine Finset.sum_congr rfl fun k _ => ?_
    have : nth (List.ofFn x) k = x k := by
      unfold nth; rw [List.getD_eq_getElem?_getD, List.getElem?_ofFn]; simp
    rw [this]; rfl
  have hui : ∀ i : Fin p, wInt (u * Chebyshev.T ℝ ((i : ℕ) : ℤ))
      = wInt (Chebyshev.T ℝ ((i : ℕ) : ℤ) ^ 2) * (toM S p b.lenSpec).mulVec x i := by
    intro i
    rw [hu]
    unfold chebPoly
    rw [mulVec_length, h.r1, Finset.sum_mul, wInt_sum, Finset.sum_eq_single (i : ℕ)]
    · rw [mul_assoc, wInt_C_mul, ← sq, mul_comm]
      congr 1
      rw [hnth]
    · intro j _ hj
      rw [mul_assoc, wInt_C_mul, wInt_TT hj, mul_zero]
    · intro hni; exact absurd (Finset.mem_range.mpr (by omega)) hni
  refine ⟨?_, hnth⟩
  rw [hu2, Finset.mul_sum, wInt_sum]
  refine Finset.sum_congr rfl fun i _ => ?_
  rw [show u * (C (M.mulVec x i) * Chebyshev.T ℝ ((i : ℕ) : ℤ))
      = C (M.mulVec x i) * (u * Chebyshev.T ℝ ((i : ℕ) : ℤ)) by ring, wInt_C_mul, hui]
  ring

/-- the energy of an axis with Dirichlet conditions -/
theorem axis_energy {o : Mode} {p : ℕ} {b : Compo ℝ} {S P I : Mat ℝ}
    (h : TauSetup o .dirichlet (p + 2) b S P I) {Q : Matrix (Fin p) (Fin p) ℝ}
    {M : Matrix (Fin p) (Fin b.lenSpec) ℝ} (ha : AxisTau p b.lenSpec S P I Q M) (x : Fin b.lenSpec → ℝ) :
    ∑ i : Fin p, wInt (Chebyshev.T ℝ ((i : ℕ) : ℤ) ^ 2) * ((toM S p b.lenSpec).mulVec x i * M.mulVec x i) ≤ 0 ∧
    (∑ i : Fin p, wInt (Chebyshev.T ℝ ((i : ℕ) : ℤ) ^ 2)
      * ((toM S p b.lenSpec).mulVec x i * M.mulVec x i) = 0 → x = 0) := by
  have he := (axis_pair h ha x).1
  obtain ⟨b1, b2⟩ := h.bc (List.ofFn x)
  obtain ⟨n1, n2⟩ := dirichlet_negative b1 b2
  rw [he]
  refine ⟨n1, fun h0 => ?_⟩
  have hz := n2 h0
  have := h.inj (List.ofFn x) (List.replicate b.lenSpec 0) (by simp) (by simp) (chebPoly_ext (by simp) (by
    rw [hz]
    unfold chebPoly
    refine (Finset.sum_eq_zero fun i hi => ?_).symm
    rw [mulVec_length] at hi
    rw [nth_mulVec _ _ (Finset.mem_range.mp hi), Finset.sum_eq_zero fun k _ => by rw [nth_rep0, smul_zero],
      C_0, zero_mul]))
  funext k
  have e := congrArg (fun l => nth l k) this
  rw [nth_rep0] at e
  have l1 : nth (List.ofFn x) k = x k := by
    unfold nth; rw [List.getD_eq_getElem?_getD, List.getElem?_ofFn]; simp
  rw [← l1]; exact e

/-- the two-dimensional energy identity: testing `β u - c Δu` with `u` -/
theorem kron_energy {p s p' s' : ℕ} {N M : Matrix (Fin p) (Fin s) ℝ} {N' M' : Matrix (Fin p') (Fin s') ℝ}
    {w : Fin p → ℝ} {w' : Fin p' → ℝ} (hw : ∀ i, 0 < w i) (hw' : ∀ i, 0 < w' i)
    (h : ∀ x, ∑ i, w i * (N.mulVec x i * M.mulVec x i) ≤ 0 ∧
      (∑ i, w i * (N.mulVec x i * M.mulVec x i) = 0 → x = 0))
    (h' : ∀ x, ∑ i, w' i * (N'.mulVec x i * M'.mulVec x i) ≤ 0 ∧
      (∑ i, w' i * (N'.mulVec x i * M'.mulVec x i) = 0 → x = 0))
    (V : Matrix (Fin s) (Fin s') ℝ) :
    ∃ E, E ≤ 0 ∧ (E = 0 → V = 0) ∧
      ∑ i, ∑ j, w i * w' j * ((N * V * N'.transpose) i j *
        (N * V * M'.transpose + M * V * N'.transpose) i j) = E := by
  set x : Fin p' → Fin s → ℝ := fun j k => (V * N'.transpose) k j with hx
  set y : Fin p → Fin s' → ℝ := fun i l => (N * V) i l with hy
  have e1 : ∀ i j, (N * V * N'.transpose) i j = N.mulVec (x j) i := fun i j => by
    rw [Matrix.mul_assoc]; rfl
  have e2 : ∀ i j, (M * V * N'.transpose) i j = M.mulVec (x j) i := fun i j => by
    rw [Matrix.mul_assoc]; rfl
  have e3 : ∀ i j, (N * V * N'.transpose) i j = N'.mulVec (y i) j := fun i j => by
    rw [Matrix.mul_apply]; exact Finset.sum_congr rfl fun l _ => mul_comm _ _
  have e4 : ∀ i j, (N * V * M'.transpose) i j = M'.mulVec (y i) j := fun i j => by
    rw [Matrix.mul_apply]; exact Finset.sum_congr rfl fun l _ => mul_comm _ _
  have s1 : ∑ j, w' j * ∑ i, w i * (N.mulVec (x j) i * M.mulVec (x j) i) ≤ 0 :=
    Finset.sum_nonpos fun j _ => mul_nonpos_of_nonneg_of_nonpos (hw' j).le (h (x j)).1
  have s2 : ∑ i, w i * ∑ j, w' j * (N'.mulVec (y i) j * M'.mulVec (y i) j) ≤ 0 :=
    Finset.sum_nonpos fun i _ => mul_nonpos_of_nonneg_of_nonpos (hw i).le (h' (y i)).1
  refine ⟨∑ j, w' j * ∑ i, w i * (N.mulVec (x j) i * M.mulVec (x j) i)
      + ∑ i, w i * ∑ j, w' j * (N'.mulVec (y i) j * M'.mulVec (y i) j), by linarith, fun h0 => ?_, ?_⟩
  · have s3 : ∑ j, w' j * ∑ i, w i * (N.mulVec (x j) i * M.mulVec (x j) i) = 0 := by linarith
    have hx0 : ∀ j, x j = 0 := fun j => (h (x j)).2 (by
      have := (Finset.sum_eq_zero_iff_of_nonpos fun j _ =>
        mul_nonpos_of_nonneg_of_nonpos (hw' j).le (h (x j)).1).mp s3 j (Finset.mem_univ j)
      exact (mul_eq_zero.mp this).resolve_left (hw' j).ne')
    ext k l
    have hrow : (fun l => V k l) = 0 := (h' fun l => V k l).2 (Finset.sum_eq_zero fun j _ => by
      have : N'.mulVec (fun l => V k l) j = x j k := by
        show _ = (V * N'.transpose) k j
        rw [Matrix.mul_apply]
        show ∑ l, N' j l * V k l = ∑ l, V k l * N' j l
        exact Finset.sum_congr rfl fun l _ => mul_comm _ _
      rw [this, hx0 j, Pi.zero_apply, zero_mul, mul_zero])
    exact congrFun hrow l
  · have : ∑ j, w' j * ∑ i, w i * (N.mulVec (x j) i * M.mulVec (x j) i)
        = ∑ i, ∑ j, w i * w' j * ((N * V * N'.transpose) i j * (M * V * N'.transpose) i j) := by
      rw [Finset.sum_comm]
      refine Finset.sum_congr rfl fun j _ => ?_
      rw [Finset.mul_sum]
      refine Finset.sum_congr rfl fun i _ => ?_
      rw [e1, e2]; ring
    rw [this, ← Finset.sum_add_distrib]
    refine Finset.sum_congr rfl fun i _ => ?_
    rw [Finset.mul_sum, ← Finset.sum_add_distrib]
    refine Finset.sum_congr rfl fun j _ => ?_
    rw [Matrix.add_apply, mul_add, mul_add, add_comm, ← e4, ← e3]
    ring

/-- the two-dimensional Helmholtz operator has no kernel -/
theorem kron_unique {p s p' s' : ℕ} {N M : Matrix (Fin p) (Fin s) ℝ} {N' M' : Matrix (Fin p') (Fin s') ℝ}
    {w : Fin p → ℝ} {w' : Fin p' → ℝ} (hw : ∀ i, 0 < w i) (hw' : ∀ i, 0 < w' i)
    (h : ∀ x, ∑ i, w i * (N.mulVec x i * M.mulVec x i) ≤ 0 ∧
      (∑ i, w i * (N.mulVec x i * M.mulVec x i) = 0 → x = 0))
    (h' : ∀ x, ∑ i, w' i * (N'.mulVec x i * M'.mulVec x i) ≤ 0 ∧
      (∑ i, w' i * (N'.mulVec x i * M'.mulVec x i) = 0 → x = 0)) {β c : ℝ} (hc : c ≠ 0) (hβ : 0 ≤ β * c)
    {V : Matrix (Fin s) (Fin s') ℝ}
    (e : β • (N * V * N'.transpose) - c • (N * V * M'.transpose + M * V * N'.transpose) = 0) : V = 0 := by
  obtain ⟨E, h0, h1, hE⟩ := kron_energy hw hw' h h' V
  refine h1 ?_
  have key : c * c * E = β * c * ∑ i, ∑ j, w i * w' j * ((N * V * N'.transpose) i j) ^ 2 := by
    rw [← hE, Finset.mul_sum, Finset.mul_sum]
    refine Finset.sum_congr rfl fun i _ => ?_
    rw [Finset.mul_sum, Finset.mul_sum]
    refine Finset.sum_congr rfl fun j _ => ?_
    have := congrFun (congrFun e i) j
    rw [Matrix.sub_apply, Matrix.smul_apply, Matrix.smul_apply, smul_eq_mul, smul_eq_mul,
      Matrix.zero_apply] at this
    linear_combination -(c * w i * w' j * (N * V * N'.transpose) i j) * this
  have hpos : 0 ≤ β * c * ∑ i, ∑ j, w i * w' j * ((N * V * N'.transpose) i j) ^ 2 :=
    mul_nonneg hβ (Finset.sum_nonneg fun i _ => Finset.sum_nonneg fun j _ =>
      mul_nonneg (mul_nonneg (hw i).le (hw' j).le) (sq_nonneg _))
  have hcc : 0 < c * c := mul_self_pos.mpr hc
  rw [← key] at hpos
  exact le_antisymm h0 (nonneg_of_mul_nonneg_right hpos hcc)

/-- a bound for the solution of a two-dimensional Helmholtz problem -/
theorem kron_stable {p s p' s' : ℕ} {N M : Matrix (Fin p) (Fin s) ℝ} {N' M' : Matrix (Fin p') (Fin s') ℝ}
    {w : Fin p → ℝ} {w' : Fin p' → ℝ} (hw : ∀ i, 0 < w i) (hw' : ∀ i, 0 < w' i)
    (h : ∀ x, ∑ i, w i * (N.mulVec x i * M.mulVec x i) ≤ 0 ∧
      (∑ i, w i * (N.mulVec x i * M.mulVec x i) = 0 → x = 0))
    (h' : ∀ x, ∑ i, w' i * (N'.mulVec x i * M'.mulVec x i) ≤ 0 ∧
      (∑ i, w' i * (N'.mulVec x i * M'.mulVec x i) = 0 → x = 0)) {β c : ℝ} (hc : 0 ≤ c) (hβ : 0 ≤ β)
    {V : Matrix (Fin s) (Fin s') ℝ} {F : Matrix (Fin p) (Fin p') ℝ}
    (e : β • (N * V * N'.transpose) - c • (N * V * M'.transpose + M * V * N'.transpose) = F) :
    β ^ 2 * ∑ i, ∑ j, w i * w' j * ((N * V * N'.transpose) i j) ^ 2
      ≤ ∑ i, ∑ j, w i * w' j * (F i j) ^ 2 := by
  obtain ⟨E, h0, -, hE⟩ := kron_energy hw hw' h h' V
  have hF : ∀ i j, F i j = β * (N * V * N'.transpose) i j
      - c * (N * V * M'.transpose + M * V * N'.transpose) i j := fun i j => by
    rw [← e]; rfl
  have key : ∑ i, ∑ j, w i * w' j * (F i j) ^ 2
      = β ^ 2 * ∑ i, ∑ j, w i * w' j * ((N * V * N'.transpose) i j) ^ 2 - 2 * β * c * E
        + c ^ 2 * ∑ i, ∑ j, w i * w' j * ((N * V * M'.transpose + M * V * N'.transpose) i j) ^ 2 := by
    rw [← hE]
    simp only [Finset.mul_sum]
    rw [← Finset.sum_sub_distrib, ← Finset.sum_add_distrib]
    refine Finset.sum_congr rfl fun i _ => ?_
    rw [← Finset.sum_sub_distrib, ← Finset.sum_add_distrib]
    refine Finset.sum_congr rfl fun j _ => ?_
    rw [hF]; ring
  have h2 : 0 ≤ c ^ 2 * ∑ i, ∑ j, w i * w' j *
      ((N * V * M'.transpose + M * V * N'.transpose) i j) ^ 2 :=
    mul_nonneg (sq_nonneg _) (Finset.sum_nonneg fun i _ => Finset.sum_nonneg fun j _ =>
      mul_nonneg (mul_nonneg (hw i).le (hw' j).le) (sq_nonneg _))
  have h3 : 2 * β * c * E ≤ 0 := mul_nonpos_of_nonneg_of_nonpos (by positivity) h0
  rw [key]
  linarith

theorem kron_apply {r s r' s' : ℕ} (A : Matrix (Fin r) (Fin s) ℝ) (V : Matrix (Fin s) (Fin s') ℝ)
    (B : Matrix (Fin r') (Fin s') ℝ) (i : Fin r) (j : Fin r') :
    (A * V * B.transpose) i j = ∑ k, ∑ l, A i k * B j l * V k l := by
  rw [Matrix.mul_apply, Finset.sum_comm]
  refine Finset.sum_congr rfl fun l _ => ?_
  rw [Matrix.mul_apply, Finset.sum_mul]
  refine Finset.sum_congr rfl fun k _ => ?_
  rw [Matrix.transpose_apply]; ring

/-- the system says that the coefficients of `β u - c Δu` and of `f` agree where both indices are
below `n - 2` -/
theorem solves2_iff {p s p' s' : ℕ} {S P I S' P' I' : Mat ℝ} {Q : Matrix (Fin p) (Fin p) ℝ}
    {M : Matrix (Fin p) (Fin s) ℝ} {Q' : Matrix (Fin p') (Fin p') ℝ} {M' : Matrix (Fin p') (Fin s') ℝ}
    (h : AxisTau p s S P I Q M) (h' : AxisTau p' s' S' P' I' Q' M') (β c : ℝ) (F V : Mat ℝ) :
    SolvesHelmholtz2 S P I S' P' I' β c F V ↔
      β • (toM S p s * toM V s s' * (toM S' p' s').transpose)
        - c • (toM S p s * toM V s s' * M'.transpose + M * toM V s s' * (toM S' p' s').transpose)
      = toM F p p' := by
  have hl : ∀ (i : Fin p) (j : Fin p'), ∑ k ∈ range S.cols, ∑ l ∈ range S'.cols,
      (β * ((matMul (matMul I P) S).get i k * (matMul (matMul I' P') S').get j l)
        - c * ((matMul (matMul I P) S).get i k * (matMul I' S').get j l
          + (matMul I S).get i k * (matMul (matMul I' P') S').get j l)) * V.get k l
      = (Q * (β • (toM S p s * toM V s s' * (toM S' p' s').transpose)
        - c • (toM S p s * toM V s s' * M'.transpose + M * toM V s s' * (toM S' p' s').transpose))
        * Q'.transpose) i j := by
    intro i j
    have e : Q * (β • (toM S p s * toM V s s' * (toM S' p' s').transpose)
        - c • (toM S p s * toM V s s' * M'.transpose + M * toM V s s' * (toM S' p' s').transpose))
        * Q'.transpose
        = β • (Q * toM S p s * toM V s s' * (Q' * toM S' p' s').transpose)
          - c • (Q * toM S p s * toM V s s' * (Q' * M').transpose
            + Q * M * toM V s s' * (Q' * toM S' p' s').transpose) := by
      simp only [Matrix.transpose_mul, Matrix.mul_sub, Matrix.sub_mul, Matrix.mul_add, Matrix.add_mul,
        Matrix.mul_smul, Matrix.smul_mul, Matrix.mul_assoc]
    rw [e, ← h.a, ← h.b, ← h'.a, ← h'.b, Matrix.sub_apply, Matrix.smul_apply, Matrix.smul_apply,
      Matrix.add_apply, kron_apply, kron_apply, kron_apply, h.scol, h'.scol, Finset.sum_range,
      smul_eq_mul, smul_eq_mul, ← Finset.sum_add_distrib, Finset.mul_sum, Finset.mul_sum,
      ← Finset.sum_sub_distrib]
    refine Finset.sum_congr rfl fun k _ => ?_
    rw [Finset.sum_range, ← Finset.sum_add_distrib, Finset.mul_sum, Finset.mul_sum, ← Finset.sum_sub_distrib]
    refine Finset.sum_congr rfl fun l _ => ?_
    simp only [toM, Matrix.of_apply]
    ring
  have hr : ∀ (i : Fin p) (j : Fin p'), ∑ k ∈ range P.cols, ∑ l ∈ range P'.cols,
        (matMul I P).get i k * (matMul I' P').get j l * F.get k l
      = (Q * toM F p p' * Q'.transpose) i j := by
    intro i j
    have cutsum : ∀ (m : ℕ) (f : ℕ → ℝ), (∀ l, m ≤ l → l < m + 2 → f l = 0) →
        ∑ l ∈ range (m + 2), f l = ∑ l : Fin m, f l := by
      intro m f hf
      rw [Finset.sum_range_succ, Finset.sum_range_succ, hf m le_rfl (by omega),
        hf (m + 1) (by omega) (by omega), add_zero, add_zero, Finset.sum_range]
    rw [kron_apply, h.pcol, h'.pcol, cutsum]
    · refine Finset.sum_congr rfl fun k _ => ?_
      rw [cutsum]
      · refine Finset.sum_congr rfl fun l _ => ?_
        rw [h.ip i k (by omega), h'.ip j l (by omega), dif_pos k.2, dif_pos l.2]
        rfl
      · intro l hl hl2
        rw [h'.ip j l hl2, dif_neg (by omega), mul_zero, zero_mul]
    · intro k hk hk2
      refine Finset.sum_eq_zero fun l _ => ?_
      rw [h.ip i k hk2, dif_neg (by omega), zero_mul, zero_mul]
  have hc : ∀ X Y : Matrix (Fin p) (Fin p') ℝ, Q * X * Q'.transpose = Q * Y * Q'.transpose ↔ X = Y := by
    intro X Y
    refine ⟨fun e => ?_, fun e => by rw [e]⟩
    have hq' : IsUnit Q'.transpose := by
      rw [Matrix.isUnit_iff_isUnit_det] at *
      rw [Matrix.det_transpose]; exact (Matrix.isUnit_iff_isUnit_det _).mp h'.unit
    obtain ⟨q, hq⟩ := h.unit
    obtain ⟨q', hq'⟩ := hq'
    rw [← hq, ← hq'] at e
    have : (q⁻¹ : (Matrix (Fin p) (Fin p) ℝ)ˣ).val * (q.val * X * q'.val) * (q'⁻¹).val
      = (q⁻¹ : (Matrix (Fin p) (Fin p) ℝ)ˣ).val * (q.val * Y * q'.val) * (q'⁻¹).val := by rw [e]
    simpa [← Matrix.mul_assoc, Matrix.mul_assoc _ q'.val] using this
  rw [← hc]
  unfold SolvesHelmholtz2
  rw [h.irow, h'.irow]
  constructor
  · intro hs
    ext i j
    rw [← hl, ← hr]
    exact hs i i.2 j j.2
  · intro e i hi j hj
    have := congrFun (congrFun e ⟨i, hi⟩) ⟨j, hj⟩
    rw [← hl, ← hr] at this
    exact this

theorem iteratedDeriv_two_eval (q : ℝ[X]) (x : ℝ) :
    iteratedDeriv 2 (fun t => q.eval t) x = (derivative (derivative q)).eval x := by
  rw [iteratedDeriv_succ, iteratedDeriv_one]
  have : deriv (fun t => q.eval t) = fun t => (derivative q).eval t := by
    funext t; exact Polynomial.deriv q
  rw [this]; exact Polynomial.deriv _

theorem laplacian_fn2 (S S' V : Mat ℝ) (x y : ℝ) : laplacian2 (fn2 S S' V) x y
    = ∑ k ∈ range S.cols, ∑ l ∈ range S'.cols, V.get k l *
      ((derivative (derivative (colPoly S k))).eval x * stencilFn S' l y
        + stencilFn S k x * (derivative (derivative (colPoly S' l))).eval y) := by
  unfold laplacian2
  have e1 : (fun s => fn2 S S' V s y) = fun s => (∑ k ∈ range S.cols, ∑ l ∈ range S'.cols,
      C (V.get k l * stencilFn S' l y) * colPoly S k).eval s := by
    funext s
    unfold fn2
    rw [eval_finset_sum]
    refine Finset.sum_congr rfl fun k _ => ?_
    rw [eval_finset_sum]
    refine Finset.sum_congr rfl fun l _ => ?_
    rw [eval_mul, eval_C, colPoly_eval]; ring
  have e2 : (fun t => fn2 S S' V x t) = fun t => (∑ k ∈ range S.cols, ∑ l ∈ range S'.cols,
      C (V.get k l * stencilFn S k x) * colPoly S' l).eval t := by
    funext t
    unfold fn2
    rw [eval_finset_sum]
    refine Finset.sum_congr rfl fun k _ => ?_
    rw [eval_finset_sum]
    refine Finset.sum_congr rfl fun l _ => ?_
    rw [eval_mul, eval_C, colPoly_eval]; ring
  rw [e1, e2, iteratedDeriv_two_eval, iteratedDeriv_two_eval]
  simp only [derivative_sum, derivative_C_mul, eval_finset_sum, eval_mul, eval_C]
  rw [← Finset.sum_add_distrib]
  refine Finset.sum_congr rfl fun k _ => ?_
  rw [← Finset.sum_add_distrib]
  exact Finset.sum_congr rfl fun l _ => by ring

/-- entries of a matrix, zero outside -/
def extM {r s : ℕ} (M : Matrix (Fin r) (Fin s) ℝ) (i k : ℕ) : ℝ :=
  if h : i < r ∧ k < s then M ⟨i, h.1⟩ ⟨k, h.2⟩ else 0

theorem AxisTau.der_eval {p s : ℕ} {S P I : Mat ℝ} {Q : Matrix (Fin p) (Fin p) ℝ}
    {M : Matrix (Fin p) (Fin s) ℝ} (h : AxisTau p s S P I Q M) {k : ℕ} (hk : k < s) (x : ℝ) :
    (derivative (derivative (colPoly S k))).eval x = ∑ i ∈ range (p + 2), extM M i k * chebFn i x := by
  have z : ∀ i, p ≤ i → extM M i k = 0 := fun i hi => by unfold extM; rw [dif_neg (by omega)]
  rw [h.der ⟨k, hk⟩, Finset.sum_range_succ, Finset.sum_range_succ, z p le_rfl, z (p + 1) (by omega),
    zero_mul, zero_mul, add_zero, add_zero, eval_finset_sum, Finset.sum_range]
  refine Finset.sum_congr rfl fun i _ => ?_
  rw [eval_mul, eval_C]
  unfold extM chebFn
  rw [dif_pos ⟨i.2, hk⟩]

/-- coefficients of `β u - c Δu` -/
noncomputable def helmCoeff (S S' V : Mat ℝ) {p s p' s' : ℕ} (M : Matrix (Fin p) (Fin s) ℝ)
    (M' : Matrix (Fin p') (Fin s') ℝ) (β c : ℝ) (i j : ℕ) : ℝ :=
  ∑ k ∈ range s, ∑ l ∈ range s', (β * (S.get i k * S'.get j l)
    - c * (S.get i k * extM M' j l + extM M i k * S'.get j l)) * V.get k l

theorem helm_eval {p s p' s' : ℕ} {S P I S' P' I' : Mat ℝ} {Q : Matrix (Fin p) (Fin p) ℝ}
    {M : Matrix (Fin p) (Fin s) ℝ} {Q' : Matrix (Fin p') (Fin p') ℝ} {M' : Matrix (Fin p') (Fin s') ℝ}
    (h : AxisTau p s S P I Q M) (h' : AxisTau p' s' S' P' I' Q' M') (β c : ℝ) (V : Mat ℝ) (x y : ℝ) :
    β * fn2 S S' V x y - c * laplacian2 (fn2 S S' V) x y
      = chebSum2 (p + 2) (p' + 2) (helmCoeff S S' V M M' β c) x y := by
  rw [laplacian_fn2]
  unfold fn2 chebSum2 helmCoeff
  simp only [Finset.mul_sum, Finset.sum_mul]
  rw [h.scol, h'.scol, ← Finset.sum_sub_distrib]
  have sw : ∀ f : ℕ → ℕ → ℕ → ℕ → ℝ, ∑ i ∈ range (p + 2), ∑ j ∈ range (p' + 2), ∑ k ∈ range s,
      ∑ l ∈ range s', f i j k l = ∑ k ∈ range s, ∑ l ∈ range s', ∑ i ∈ range (p + 2),
        ∑ j ∈ range (p' + 2), f i j k l := by
    intro f
    have : ∀ i, ∑ j ∈ range (p' + 2), ∑ k ∈ range s, ∑ l ∈ range s', f i j k l
        = ∑ k ∈ range s, ∑ l ∈ range s', ∑ j ∈ range (p' + 2), f i j k l := fun i => by
      rw [Finset.sum_comm]
      exact Finset.sum_congr rfl fun k _ => Finset.sum_comm
    simp only [this]
    rw [Finset.sum_comm]
    exact Finset.sum_congr rfl fun k _ => Finset.sum_comm
  rw [sw]
  refine Finset.sum_congr rfl fun k hk => ?_
  rw [← Finset.sum_sub_distrib]
  refine Finset.sum_congr rfl fun l hl => ?_
  rw [h.der_eval (Finset.mem_range.mp hk), h'.der_eval (Finset.mem_range.mp hl)]
  unfold stencilFn
  rw [h.srow, h'.srow]
  rw [Finset.sum_mul_sum, Finset.sum_mul_sum, Finset.sum_mul_sum]
  simp only [← Finset.sum_add_distrib, Finset.mul_sum, ← Finset.sum_sub_distrib]
  refine Finset.sum_congr rfl fun i _ => Finset.sum_congr rfl fun j _ => ?_
  ring

theorem helmCoeff_apply {p s p' s' : ℕ} (S S' V : Mat ℝ) (M : Matrix (Fin p) (Fin s) ℝ)
    (M' : Matrix (Fin p') (Fin s') ℝ) (β c : ℝ) (i : Fin p) (j : Fin p') :
    helmCoeff S S' V M M' β c i j = (β • (toM S p s * toM V s s' * (toM S' p' s').transpose)
        - c • (toM S p s * toM V s s' * M'.transpose + M * toM V s s' * (toM S' p' s').transpose)) i j := by
  rw [Matrix.sub_apply, Matrix.smul_apply, Matrix.smul_apply, Matrix.add_apply, kron_apply, kron_apply,
    kron_apply, smul_eq_mul, smul_eq_mul, ← Finset.sum_add_distrib, Finset.mul_sum, Finset.mul_sum,
    ← Finset.sum_sub_distrib]
  unfold helmCoeff
  rw [Finset.sum_range]
  refine Finset.sum_congr rfl fun k _ => ?_
  rw [Finset.sum_range, ← Finset.sum_add_distrib, Finset.mul_sum, Finset.mul_sum, ← Finset.sum_sub_distrib]
  refine Finset.sum_congr rfl fun l _ => ?_
  unfold extM
  rw [dif_pos ⟨j.2, l.2⟩, dif_pos ⟨i.2, k.2⟩]
  simp only [toM, Matrix.of_apply]
  ring

/-- Chebyshev products are linearly independent -/
theorem chebSum2_inj {n n' : ℕ} {F G : ℕ → ℕ → ℝ}
    (h : ∀ x y, chebSum2 n n' F x y = chebSum2 n n' G x y) : ∀ i < n, ∀ j < n', F i j = G i j := by
  have one : ∀ (n : ℕ) (a b : ℕ → ℝ), (∀ x, ∑ i ∈ range n, a i * chebFn i x = ∑ i ∈ range n, b i * chebFn i x) →
      ∀ i < n, a i = b i := by
    intro n a b hab i hi
    have := chebPoly_ext (a := (List.range n).map a) (b := (List.range n).map b) (by simp) (by
      refine Polynomial.funext fun x => ?_
      have e : ∀ c : ℕ → ℝ, (chebPoly ℝ ((List.range n).map c)).eval x = ∑ i ∈ range n, c i * chebFn i x := by
        intro c
        unfold chebPoly chebFn
        rw [eval_finset_sum, List.length_map, List.length_range]
        refine Finset.sum_congr rfl fun i hi => ?_
        rw [eval_mul, eval_C, nth_map_range _ _ _ (Finset.mem_range.mp hi)]
      rw [e, e, hab])
    have := congrArg (fun l => nth l i) this
    rwa [nth_map_range _ _ _ hi, nth_map_range _ _ _ hi] at this
  intro i hi j hj
  refine one n' (F i) (G i) (fun y => ?_) j hj
  refine one n (fun i => ∑ j ∈ range n', F i j * chebFn j y) (fun i => ∑ j ∈ range n', G i j * chebFn j y)
    (fun x => ?_) i hi
  have := h x y
  unfold chebSum2 at this
  convert this using 2 with k _ k _ <;>
  · rw [Finset.sum_mul]
    exact Finset.sum_congr rfl fun l _ => by ring

end Verif
