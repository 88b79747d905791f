/-
C103: the matrices (`diffmat`, `laplacian`, `diffmat_pinv`, `laplacian_pinv`, `stencil`, `stencil_inv`) computed with rounding.
-/
import Verif.Proof.RndMatStencil
import Verif.Props.Ortho
import Verif.Spec.Mat
import Verif.Props.RoundingCheb
import Verif.Proof.RndGrid
import Mathlib.Analysis.SpecialFunctions.Trigonometric.Chebyshev.RootsExtrema

namespace Verif.Props
open Res Spec Finset
variable {R : Rounding}

private theorem lt_one {k : ℕ} (hk : 1 ≤ k) (h : (k:ℝ) * R.u < 1) : R.u < 1 := by
  have h0 := R.u_nonneg
  have h1 : (1:ℝ) ≤ k := by exact_mod_cast hk
  nlinarith

private theorem diffmat_rel (hu : R.u < 1) (o : Mode) (b : Cheb) (d : ℕ) :
    Tracks (RelM 6) (b.diffmat (Rnd R) o d) (b.diffmat ℝ o d) := by
  unfold Cheb.diffmat
  exact .same _ fun _ => tracks_dmat hu o b.n d

private theorem diffmatPinv_rel (hu : R.u < 1) (o : Mode) (b : Cheb) (d : ℕ) :
    Tracks (fun p q : _ × _ => RelM 5 p.1 q.1 ∧ RelM 0 p.2 q.2) (b.diffmatPinv (Rnd R) o d) (b.diffmatPinv ℝ o d) := by
  unfold Cheb.diffmatPinv
  refine .same _ fun _ => ?_
  refine .bind (tracks_pinv hu o b.n d) fun M N h => ?_
  exact .bind (tracks_pinvEye hu b.n d) fun M N h' => .pure ⟨h, h'⟩

private theorem near_zero {M : Mat (Rnd R)} {N : Mat ℝ} (h : RelM 0 M N) : EntrywiseNear 0 M N := by
  have := h.near (by simp)
  simpa [Rounding.γ] using this

/-- C103: `diffmat`, computed with rounding, returns or fails exactly when it does in exact arithmetic; the relative error
of every entry is at most `γ₆` (six roundings), whatever the size, the order of the derivative and the overflow mode. -/
theorem C103_diffmat (h6 : (6:ℕ) * R.u < 1) (o : Mode) (b : Cheb) (d : ℕ) :
    Tracks (EntrywiseNear (R.γ 6)) (b.diffmat (Rnd R) o d) (b.diffmat ℝ o d) :=
  (diffmat_rel (lt_one (by norm_num) h6) o b d).mono fun _ _ h => h.near h6

/-- C103: `laplacian`. -/
theorem C103_laplacian (h6 : (6:ℕ) * R.u < 1) (o : Mode) (b : Cheb) :
    Tracks (EntrywiseNear (R.γ 6)) (b.laplacian (Rnd R) o) (b.laplacian ℝ o) := C103_diffmat h6 o b 2

/-- C103: `diffmat_pinv`: five roundings per entry; the second matrix is exact. -/
theorem C103_diffmat_pinv (h5 : (5:ℕ) * R.u < 1) (o : Mode) (b : Cheb) (d : ℕ) :
    Tracks (fun p q : _ × _ => EntrywiseNear (R.γ 5) p.1 q.1 ∧ EntrywiseNear 0 p.2 q.2)
      (b.diffmatPinv (Rnd R) o d) (b.diffmatPinv ℝ o d) :=
  (diffmatPinv_rel (lt_one (by norm_num) h5) o b d).mono fun _ _ h => ⟨h.1.near h5, near_zero h.2⟩

/-- C103: `laplacian_pinv`. -/
theorem C103_laplacian_pinv (h5 : (5:ℕ) * R.u < 1) (o : Mode) (b : Cheb) :
    Tracks (fun p q : _ × _ => EntrywiseNear (R.γ 5) p.1 q.1 ∧ EntrywiseNear 0 p.2 q.2)
      (b.laplacianPinv (Rnd R) o) (b.laplacianPinv ℝ o) := C103_diffmat_pinv h5 o b 2

private theorem relmp {k : ℕ} {M : Mat (Rnd R)} {N : Mat ℝ} (h : RelMP (RelN k) M N) : RelM k M N := h

/-- C103: `stencil` of the bases `cheb_dirichlet`, `cheb_neumann`, `cheb_biharmonic_a`, `cheb_biharmonic_b`, constructed
and computed with rounding: relative error of every entry at most `γ₂₄`. -/
theorem C103_stencil (h24 : (24:ℕ) * R.u < 1) (k : CKind) (hk : k ≠ .dirichletNeumann) (n : ℕ) :
    Tracks (EntrywiseNear (R.γ 24)) (Compo.new k n >>= fun b : Compo (Rnd R) => b.stencilMat)
      (Compo.new k n >>= fun b : Compo ℝ => b.stencilMat) := by
  have hu := lt_one (by norm_num) h24
  refine Tracks.mono (P := RelM 24) (fun _ _ h => h.near h24) ?_
  have Z : ∀ {j : ℕ}, RelN j (0 : Rnd R) 0 := RelN.zero hu
  refine .bind (P := fun b b' => Tracks (RelM 24) b.stencilMat b'.stencilMat) ?_ fun _ _ h => h
  cases k with
  | dirichletNeumann => exact absurd rfl hk
  | dirichlet =>
    refine .bind (tracks_dirichlet hu n) fun s s' hs => .same _ fun m => .same _ fun c => .pure ?_
    exact (tracks_array2 Z hs.1).mono fun _ _ h => (relmp h).mono hu (by omega)
  | neumann =>
    refine .bind (tracks_neumann hu n) fun s s' hs => .same _ fun m => .same _ fun c => .pure ?_
    exact (tracks_array2 Z hs.1).mono fun _ _ h => (relmp h).mono hu (by omega)
  | biharmonicA =>
    refine .bind (tracks_biharmonicA hu n) fun s s' hs => .same _ fun m => .same _ fun c => .pure ?_
    exact (tracks_array4 Z hs).mono fun _ _ h => (relmp h).mono hu (by omega)
  | biharmonicB =>
    refine .bind (tracks_biharmonicB hu n) fun s s' hs => .same _ fun m => .same _ fun c => .pure ?_
    exact (tracks_array4 Z hs).mono fun _ _ h => (relmp h).mono hu (by omega)

/-- C103: `stencil` of `cheb_dirichlet_neumann`: absolute error of every entry at most `γ₁₃` (the entries have modulus at
most one; `-k² + (k+2)²` cancels, so that there is no such bound on the relative error). -/
theorem C103_stencil_mixed (h13 : (13:ℕ) * R.u < 1) (n : ℕ) :
    Tracks (fun (M : Mat (Rnd R)) (N : Mat ℝ) => M.rows = N.rows ∧ M.cols = N.cols ∧
        ∀ i < M.rows, ∀ j < M.cols, |(M.get i j).val - N.get i j| ≤ R.γ 13)
      (Compo.new .dirichletNeumann n >>= fun b : Compo (Rnd R) => b.stencilMat)
      (Compo.new .dirichletNeumann n >>= fun b : Compo ℝ => b.stencilMat) := by
  refine .bind (P := fun b b' => Tracks (RelMP (AbsN (R.γ 13))) b.stencilMat b'.stencilMat) ?_ fun _ _ h =>
    h.mono fun _ _ h => ⟨h.1, h.2.1, fun i _ j _ => h.2.2 i j⟩
  refine .bind (tracks_mixed h13 n) fun s s' hs => .same _ fun m => .same _ fun c => .pure ?_
  exact tracks_array3 (P := AbsN (R.γ 13)) (by simpa [AbsN] using R.γ_nonneg h13) hs

/-- C103: `stencil_inv` of `cheb_dirichlet` and `cheb_neumann`: the error grows at most linearly with the size. -/
theorem C103_stencil_inv (k : CKind) (hk : k = .dirichlet ∨ k = .neumann) (n : ℕ) (hn : ((11 * n : ℕ):ℝ) * R.u < 1) :
    Tracks (EntrywiseNear (R.γ (11 * n))) (Compo.new k n >>= fun b : Compo (Rnd R) => b.stencilInv)
      (Compo.new k n >>= fun b : Compo ℝ => b.stencilInv) := by
  rcases Nat.eq_zero_or_pos n with rfl | h0
  · rcases hk with rfl | rfl <;> exact .err _
  have hu : R.u < 1 := lt_one (by omega) hn
  have fin : ∀ {s : Stencil2 (Rnd R)} {s' : Stencil2 ℝ} {k : ℕ}, k ≤ 4 → RelS2 (RelN k) s s' → s'.diag.length ≤ n →
      Tracks (EntrywiseNear (R.γ (11 * n))) s.pinv s'.pinv := fun {s s' k} hk hs hm =>
    (tracks_pinv2 hu hs.1 hs.2).mono fun M N h => by
      refine ⟨h.1.1.trans h.1.2.symm, h.2.1, fun i hi j _ => ?_⟩
      have : (k + k + 3) * (i + 1 - j) ≤ 11 * n := by
        have := h.1.1
        exact Nat.mul_le_mul (by omega) (by omega)
      exact (RelV.near ((h.2.2 i j).mono hu this) hn).2
  refine .bind (P := fun b b' => Tracks (EntrywiseNear (R.γ (11 * n))) b.stencilInv b'.stencilInv) ?_ fun _ _ h => h
  rcases hk with rfl | rfl
  · exact .bind (tracks_dirichlet hu n) fun s s' hs => .same _ fun m => .same _ fun c => .pure (fin (by omega) hs.1 hs.2)
  · exact .bind (tracks_neumann hu n) fun s s' hs => .same _ fun m => .same _ fun c => .pure (fin (by omega) hs.1 hs.2)

private theorem new_ortho (h24 : (24:ℕ) * R.u < 1) (k : CKind) (n : ℕ) :
    Tracks (fun (b : Compo (Rnd R)) (b' : Compo ℝ) => b.ortho = b'.ortho) (Compo.new k n) (Compo.new k n) := by
  have hu := lt_one (by norm_num) h24
  have h0 := R.u_nonneg
  cases k with
  | dirichletNeumann =>
    exact .bind (tracks_mixed (by push_cast at *; linarith) n) fun s s' hs => .same _ fun m => .same _ fun c => .pure rfl
  | dirichlet => exact .bind (tracks_dirichlet hu n) fun s s' hs => .same _ fun m => .same _ fun c => .pure rfl
  | neumann => exact .bind (tracks_neumann hu n) fun s s' hs => .same _ fun m => .same _ fun c => .pure rfl
  | biharmonicA => exact .bind (tracks_biharmonicA hu n) fun s s' hs => .same _ fun m => .same _ fun c => .pure rfl
  | biharmonicB => exact .bind (tracks_biharmonicB hu n) fun s s' hs => .same _ fun m => .same _ fun c => .pure rfl

/-- C103: `diffmat` and `diffmat_pinv` of the five composite bases. -/
theorem C103_composite (h24 : (24:ℕ) * R.u < 1) (k : CKind) (n : ℕ) (o : Mode) (d : ℕ) :
    Tracks (EntrywiseNear (R.γ 6)) (Compo.new k n >>= fun b : Compo (Rnd R) => b.diffmat o d)
      (Compo.new k n >>= fun b : Compo ℝ => b.diffmat o d) ∧
    Tracks (fun p q : _ × _ => EntrywiseNear (R.γ 5) p.1 q.1 ∧ EntrywiseNear 0 p.2 q.2)
      (Compo.new k n >>= fun b : Compo (Rnd R) => b.diffmatPinv o d)
      (Compo.new k n >>= fun b : Compo ℝ => b.diffmatPinv o d) := by
  have h0 := R.u_nonneg
  refine ⟨.bind (new_ortho h24 k n) fun b b' h => ?_, .bind (new_ortho h24 k n) fun b b' h => ?_⟩
  · unfold Compo.diffmat
    rw [h]
    exact C103_diffmat (by push_cast at *; linarith) o _ d
  · unfold Compo.diffmatPinv
    rw [h]
    exact C103_diffmat_pinv (by push_cast at *; linarith) o _ d

private theorem dTrue_nonneg (k i q : ℕ) (hk : k ≤ 4) : 0 ≤ dTrue ℝ k i q := by
  induction k generalizing i with
  | zero =>
    unfold dTrue
    rw [if_pos rfl]
    split <;> norm_num
  | succ k ih =>
    have key : ∀ t i, q < i + t → 0 ≤ dTrue ℝ (k + 1) i q := by
      intro t
      induction t with
      | zero => exact fun i h => (dTrue_zero (by omega)).ge
      | succ t iht =>
        intro i h
        rw [dTrue_rec k i q (by omega)]
        refine add_nonneg ?_ (mul_nonneg (by positivity) (ih (i + 1) (by omega)))
        exact iht (i + 2) (by omega)
    exact key (q + 1) i (by omega)

private theorem diffmat_nonneg (o : Mode) {n k : ℕ} (hn : 0 < n) (hk : 1 ≤ k ∧ k ≤ 4) (hm : n ≤ dmatMax o k) {D : Mat ℝ}
    (hD : Cheb.diffmat ℝ o ⟨n, n⟩ k = ok D) {i j : ℕ} (hi : i < n) (hj : j < n) : 0 ≤ D.get i j := by
  have : wp (fun _ => True) (dmat ℝ o n k) (fun d => d.rows = n ∧ d.cols = n ∧ ∀ i < n, ∀ j < n, d.get i j = hTrue ℝ k i j) :=
    wp_dmat o hk.1 hk.2 hn hm
  unfold Cheb.diffmat assertR at hD
  rw [if_pos (by omega)] at hD
  rw [show dmat ℝ o n k = ok D from hD] at this
  rw [this.2.2 i hi j hj]
  unfold hTrue
  have := dTrue_nonneg k i j hk.2
  split
  · positivity
  · exact this

/-- C103: differentiating with the computed matrix.  For every vector of coefficients the polynomial obtained with
`diffmat(k)`, computed with rounding, differs from the `k`-th derivative by at most `γ₆ ∑ⱼ |aⱼ| Tⱼ⁽ᵏ⁾(1)` on `[-1, 1]`. -/
theorem C103_derivative (h6 : (6:ℕ) * R.u < 1) (o : Mode) {n : ℕ} (b : Cheb) (hb : Cheb.new n = ok b) {k : ℕ} (hk : 1 ≤ k ∧ k ≤ 4)
    (hm : n ≤ dmatMax o k) :
    ∃ M : Mat (Rnd R), b.diffmat (Rnd R) o k = ok M ∧ M.rows = n ∧ M.cols = n ∧
      ∀ a : List ℝ, a.length = n → ∀ x ∈ Set.Icc (-1:ℝ) 1,
        |chebVal ℝ (mulVec (M.map Rnd.val) a) x - (Polynomial.derivative^[k] (chebPoly ℝ a)).eval x| ≤
          R.γ 6 * ∑ j ∈ range n, |nth a j| * (Polynomial.derivative^[k] (Polynomial.Chebyshev.T ℝ j)).eval 1 := by
  obtain ⟨D, hD, d1, d2, d3⟩ := C06_diffmat_columns (K := ℝ) o n b hb k hk hm
  have T := C103_diffmat h6 o b k
  rw [hD] at T
  have hg : 0 ≤ R.γ 6 := R.γ_nonneg h6
  generalize hM : b.diffmat (Rnd R) o k = r at T
  cases T with
  | @ok M _ T =>
  obtain ⟨rfl, hn⟩ := cheb_of_new hb
  have nn : ∀ {i j : ℕ}, i < n → j < n → 0 ≤ D.get i j := fun hi hj => diffmat_nonneg o (by omega) hk hm hD hi hj
  obtain ⟨t1, t2, t3⟩ := T
  rw [d1] at t1
  rw [d2] at t2
  refine ⟨M, rfl, t1, t2, fun a ha x hx => ?_⟩
  have colv : ∀ (y : ℝ) {j : ℕ}, j < n → (Polynomial.derivative^[k] (Polynomial.Chebyshev.T ℝ j)).eval y =
      ∑ i ∈ range n, D.get i j * (Polynomial.Chebyshev.T ℝ i).eval y := fun y j hj => by
    rw [← d3 j hj, chebPoly, Polynomial.eval_finset_sum]
    have l : (col D j).length = n := by simp [col, d1]
    rw [l]
    refine sum_congr rfl fun i hi => ?_
    rw [Polynomial.eval_C_mul, col, d1, nth_map_range _ _ _ (mem_range.mp hi)]
  have lhs : chebVal ℝ (mulVec (M.map Rnd.val) a) x =
      ∑ j ∈ range n, nth a j * ∑ i ∈ range n, (M.get i j).val * (Polynomial.Chebyshev.T ℝ i).eval x := by
    unfold chebVal
    rw [mulVec_length, show (M.map Rnd.val).rows = n from t1]
    simp only [mul_sum]
    rw [sum_comm]
    refine sum_congr rfl fun i hi => ?_
    rw [nth_mulVec _ _ (by rw [show (M.map Rnd.val).rows = n from t1]; exact mem_range.mp hi), show (M.map Rnd.val).cols = n from t2,
      smul_eq_mul, mul_sum]
    refine sum_congr rfl fun j _ => ?_
    show _ * ((M.get i j).val * _) = _
    ring
  have rhs : (Polynomial.derivative^[k] (chebPoly ℝ a)).eval x =
      ∑ j ∈ range n, nth a j * ∑ i ∈ range n, D.get i j * (Polynomial.Chebyshev.T ℝ i).eval x := by
    rw [← chebDeriv_eq_eval, chebDeriv, ha]
    refine sum_congr rfl fun j hj => ?_
    rw [colv x (mem_range.mp hj), smul_eq_mul, mul_comm]
  rw [lhs, rhs, ← sum_sub_distrib, mul_sum]
  refine (abs_sum_le_sum_abs _ _).trans (sum_le_sum fun j hj => ?_)
  have hj := mem_range.mp hj
  rw [← mul_sub, abs_mul, colv 1 hj, ← sum_sub_distrib, ← mul_assoc, mul_comm (R.γ 6), mul_assoc]
  refine mul_le_mul_of_nonneg_left ?_ (abs_nonneg _)
  rw [mul_sum]
  refine (abs_sum_le_sum_abs _ _).trans (sum_le_sum fun i hi => ?_)
  have hi := mem_range.mp hi
  rw [← sub_mul, abs_mul]
  have e := t3 i (by rw [t1]; exact hi) j (by rw [t2]; exact hj)
  rw [abs_of_nonneg (nn hi hj)] at e
  have b1 : |(Polynomial.Chebyshev.T ℝ i).eval x| ≤ 1 := Polynomial.Chebyshev.abs_eval_T_real_le_one _ (abs_le.mpr hx)
  rw [Polynomial.Chebyshev.T_eval_one, mul_one]
  calc _ ≤ (R.γ 6 * D.get i j) * 1 := mul_le_mul e b1 (abs_nonneg _) (mul_nonneg hg (nn hi hj))
    _ = _ := mul_one _

/-- C103: in a binary arithmetic that rounds to nearest the entries of `diffmat(1)`, `diffmat(2)`, `diffmat(3)` are correctly
rounded, whatever the size and the overflow mode. -/
theorem C103_correctly_rounded (hR : R.Nearest) (hh : R.Halves) (o : Mode) (b : Cheb) (d : ℕ) (hd : d ≤ 3) :
    Tracks CorrectlyRounded (b.diffmat (Rnd R) o d) (b.diffmat ℝ o d) := by
  refine Tracks.mono (P := RelMP FlN) (fun _ _ h => ⟨h.1, h.2.1, fun i _ j _ => h.2.2 i j⟩) ?_
  unfold Cheb.diffmat
  exact .same _ fun _ => tracks_fl_dmat hR hh o b.n d hd

private theorem zEnt_bound {d p q n : ℕ} (hd : 1 ≤ d ∧ d ≤ 3) (hpq : p + d ≤ q) (hq : q < n) :
    ∃ m : ℕ, zEnt d p q = m ∧ m ≤ 2 * n ^ (2 * d - 1) := by
  have key : 0 ≤ zEnt d p q ∧ zEnt d p q ≤ 2 * (q:ℤ) ^ (2 * d - 1) := by
    obtain ⟨s, rfl⟩ : ∃ s, q = p + s := ⟨q - p, by omega⟩
    have hs : (d:ℤ) ≤ s := by omega
    have hp : (0:ℤ) ≤ p := by omega
    have : d = 1 ∨ d = 2 ∨ d = 3 := by omega
    rcases this with rfl | rfl | rfl
    · simp only [zEnt]
      push_cast at *
      constructor <;> [linarith; norm_num]
    · simp only [zEnt]
      push_cast at *
      have e : ((p:ℤ) + s) ^ 2 - p ^ 2 = s * (2 * p + s) := by ring
      rw [e]
      have h1 : 0 ≤ (s:ℤ) * (2 * p + s) := mul_nonneg (by linarith) (by linarith)
      have h2 : (s:ℤ) * (2 * p + s) ≤ (p + s) ^ 2 := by nlinarith
      refine ⟨mul_nonneg (by linarith) h1, ?_⟩
      calc ((p:ℤ) + s) * (s * (2 * p + s)) ≤ (p + s) * (p + s) ^ 2 := mul_le_mul_of_nonneg_left h2 (by linarith)
        _ = (p + s) ^ 3 := by ring
        _ ≤ 2 * (p + s) ^ 3 := by nlinarith [pow_nonneg (by linarith : (0:ℤ) ≤ p + s) 3]
    · simp only [zEnt]
      push_cast at *
      have e1 : (p:ℤ) + s - p = s := by ring
      have e2 : (p:ℤ) + s + p = 2 * p + s := by ring
      rw [e1, e2]
      have a1 : 0 ≤ (s:ℤ) ^ 2 - 1 := by nlinarith
      have a2 : 0 ≤ (2 * (p:ℤ) + s) ^ 2 - 1 := by nlinarith
      have h2 : (s:ℤ) * (2 * p + s) ≤ (p + s) ^ 2 := by nlinarith
      have h1 : 0 ≤ (s:ℤ) * (2 * p + s) := mul_nonneg (by linarith) (by linarith)
      have h3 : ((s:ℤ) ^ 2 - 1) * ((2 * p + s) ^ 2 - 1) ≤ (p + s) ^ 4 :=
        calc ((s:ℤ) ^ 2 - 1) * ((2 * p + s) ^ 2 - 1) ≤ s ^ 2 * (2 * p + s) ^ 2 :=
              mul_le_mul (by linarith) (by linarith) a2 (by positivity)
          _ = (s * (2 * p + s)) ^ 2 := by ring
          _ ≤ ((p + s) ^ 2) ^ 2 := pow_le_pow_left₀ h1 h2 2
          _ = (p + s) ^ 4 := by ring
      refine ⟨mul_nonneg (by linarith) (mul_nonneg a1 a2), ?_⟩
      calc ((p:ℤ) + s) * (((s:ℤ) ^ 2 - 1) * ((2 * p + s) ^ 2 - 1)) ≤ (p + s) * (p + s) ^ 4 := mul_le_mul_of_nonneg_left h3 (by linarith)
        _ = (p + s) ^ 5 := by ring
        _ ≤ 2 * (p + s) ^ 5 := by nlinarith [pow_nonneg (by linarith : (0:ℤ) ≤ p + s) 5]
  obtain ⟨m, hm⟩ := Int.eq_ofNat_of_zero_le key.1
  refine ⟨m, hm, ?_⟩
  have h1 : m ≤ 2 * q ^ (2 * d - 1) := by
    have := key.2
    rw [hm] at this
    exact_mod_cast this
  exact h1.trans (Nat.mul_le_mul_left 2 (Nat.pow_le_pow_left hq.le _))

/-- C103: as long as the entries fit, they are exact. -/
theorem C103_exact (hR : R.Nearest) (hh : R.Halves) {W : ℕ} (hW : R.Integers W) (o : Mode) {n : ℕ} (b : Cheb) (hb : Cheb.new n = ok b)
    {d : ℕ} (hd : 1 ≤ d ∧ d ≤ 3) (hm : n ≤ dmatMax o d) (hn : 2 * n ^ (2 * d - 1) ≤ W) :
    ∃ (M : Mat (Rnd R)) (N : Mat ℝ), b.diffmat (Rnd R) o d = ok M ∧ b.diffmat ℝ o d = ok N ∧
      M.rows = n ∧ M.cols = n ∧ ∀ i < n, ∀ j < n, (M.get i j).val = N.get i j := by
  obtain ⟨rfl, h2⟩ := cheb_of_new hb
  have T := C103_correctly_rounded hR hh o ⟨n, n⟩ d hd.2
  obtain ⟨D, hD, d1, d2, d3⟩ := wp_total.mp (wp_dmat (K := ℝ) (Q := fun _ => False) o hd.1 (by omega) (by omega : 0 < n) hm)
  have eD : Cheb.diffmat ℝ o ⟨n, n⟩ d = ok D := by
    unfold Cheb.diffmat assertR
    rw [if_pos (by omega)]
    exact hD
  rw [eD] at T
  generalize hM : Cheb.diffmat (Rnd R) o ⟨n, n⟩ d = r at T
  cases T with
  | @ok M _ T =>
  refine ⟨M, D, rfl, eD, T.1.trans d1, T.2.1.trans d2, fun i hi j hj => ?_⟩
  rw [T.2.2 i (by rw [T.1, d1]; exact hi) j (by rw [T.2.1, d2]; exact hj), d3 i hi j hj]
  have half : ∀ {x}, R.IsFloat x → R.IsFloat (x / 2) := fun {x} h => by
    show R.fl (x / 2) = x / 2
    rw [hh, h]
  have ft : R.IsFloat (dTrue ℝ d i j) := by
    unfold dTrue
    rw [if_neg (by omega)]
    split
    · rename_i hc
      obtain ⟨m, e, hle⟩ := zEnt_bound hd hc.1 hj
      have fm : R.IsFloat (m:ℝ) := hW m (hle.trans hn)
      rw [e]
      have : d = 1 ∨ d = 2 ∨ d = 3 := by omega
      rcases this with rfl | rfl | rfl
      · simpa [zDen] using fm
      · simpa [zDen] using fm
      · have := half (half fm)
        simp only [zDen]
        rw [show (((m:ℤ):ℝ)) / ((4:ℕ):ℝ) = (m:ℝ) / 2 / 2 by push_cast; ring]
        exact this
    · exact R.fl_zero
  unfold hTrue
  split
  · rw [mul_one_div]; exact half ft
  · exact ft

/-- numbers with `q + 1` binary digits -/
theorem binary_halves (q : ℕ) : (binary q).Halves := by
  have pos : ∀ x : ℝ, 0 < x → nearPos q (x / 2) = nearPos q x / 2 := fun x hx => by
    have e : ulp q (x / 2) = ulp q x / 2 := by
      unfold ulp
      have l : Int.log 2 (x / 2) = Int.log 2 x - 1 := by
        have x2 : 0 < x / 2 := by linarith
        refine le_antisymm ?_ ?_
        · have := Int.zpow_log_le_self (R := ℝ) (b := 2) (by norm_num) x2
          rw [le_sub_iff_add_le]
          refine (Int.zpow_le_iff_le_log (by norm_num) hx).mp ?_
          rw [zpow_add_one₀ (by norm_num)]
          push_cast at *
          linarith
        · refine (Int.zpow_le_iff_le_log (by norm_num) x2).mp ?_
          have := Int.zpow_log_le_self (R := ℝ) (b := 2) (by norm_num) hx
          rw [zpow_sub_one₀ (by norm_num)]
          push_cast at *
          linarith
      rw [l, show Int.log 2 x - 1 - (q:ℤ) = Int.log 2 x - q - 1 by ring, zpow_sub_one₀ (by norm_num)]
      ring
    unfold nearPos
    rw [e, div_div_div_cancel_right₀ (by norm_num)]
    ring
  intro x
  show near q (x / 2) = near q x / 2
  unfold near
  rcases lt_trichotomy x 0 with h | rfl | h
  · rw [if_neg (by linarith), if_neg (by linarith), ← neg_div, pos _ (by linarith)]; ring
  · simp [nearPos_zero]
  · rw [if_pos (by linarith), if_pos h.le, pos _ h]

/-- double precision: `laplacian()` is exact up to 100 000 points -/
example (o : Mode) : ∃ (b : Cheb) (M : Mat (Rnd (binary 52))) (N : Mat ℝ), Cheb.new 100000 = ok b ∧
    b.laplacian (Rnd (binary 52)) o = ok M ∧ b.laplacian ℝ o = ok N ∧
      ∀ i < 100000, ∀ j < 100000, (M.get i j).val = N.get i j := by
  obtain ⟨b, hb, -⟩ := wp_total.mp (wp_chebNew (Q := fun _ => False) (n := 100000) (by omega))
  obtain ⟨M, N, h1, h2, -, -, h3⟩ := C103_exact (binary_nearest 52) (binary_halves 52) (binary_integers 52) o b hb (d := 2) (by omega)
    (by cases o <;> simp [dmatMax]) (by norm_num)
  exact ⟨b, M, N, hb, h1, h2, h3⟩

/-- double precision: all stencils -/
example (n : ℕ) : Tracks (EntrywiseNear (1 / 10 ^ 14)) (Compo.new .biharmonicB n >>= fun b : Compo (Rnd (binary 52)) => b.stencilMat)
    (Compo.new .biharmonicB n >>= fun b : Compo ℝ => b.stencilMat) := by
  refine (C103_stencil (R := binary 52) (by rw [u52']; norm_num) .biharmonicB (by decide) n).mono fun M N h =>
    ⟨h.1, h.2.1, fun i hi j hj => (h.2.2 i hi j hj).trans (mul_le_mul_of_nonneg_right ?_ (abs_nonneg _))⟩
  rw [gam52']; norm_num

end Verif.Props
