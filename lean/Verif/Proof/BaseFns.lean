/-
The functions represented by coefficient vectors: values and derivatives, for every base.
-/
import Verif.Proof.SpaceLaws
import Verif.Props.Axis
import Mathlib.Analysis.Calculus.Deriv.Polynomial
import Mathlib.Analysis.Calculus.IteratedDeriv.Lemmas
import Mathlib.Analysis.Calculus.ContDiff.Polynomial
import Mathlib.Analysis.SpecialFunctions.ExpDeriv

namespace Verif
open Res Spec Finset

theorem iteratedDeriv_poly (p : Polynomial ℝ) (d : ℕ) :
    iteratedDeriv d (fun x => p.eval x) = fun x => (Polynomial.derivative^[d] p).eval x := by
  induction d generalizing p with
  | zero => simp
  | succ d ih =>
    rw [iteratedDeriv_succ']
    have : deriv (fun x => p.eval x) = fun x => (Polynomial.derivative p).eval x := by
      funext x; simp
    rw [this, ih, Function.iterate_succ_apply]

theorem iteratedDeriv_chebFn (d k : ℕ) (x : ℝ) :
    iteratedDeriv d (chebFn k) x = (Polynomial.derivative^[d] (Polynomial.Chebyshev.T ℝ k)).eval x :=
  congrFun (iteratedDeriv_poly _ d) x

theorem stencilFn_eq (S : Mat ℝ) (i : ℕ) : stencilFn S i = fun x =>
    (∑ k ∈ range S.rows, Polynomial.C (S.get k i) * Polynomial.Chebyshev.T ℝ k).eval x := by
  funext x
  rw [Polynomial.eval_finset_sum]
  exact Finset.sum_congr rfl (fun k _ => by rw [Polynomial.eval_C_mul]; rfl)

theorem iteratedDeriv_stencilFn (S : Mat ℝ) (i d : ℕ) (x : ℝ) :
    iteratedDeriv d (stencilFn S i) x
      = ∑ k ∈ range S.rows, S.get k i * iteratedDeriv d (chebFn k) x := by
  rw [stencilFn_eq, iteratedDeriv_poly]
  dsimp only
  rw [Polynomial.iterate_derivative_sum, Polynomial.eval_finset_sum]
  refine Finset.sum_congr rfl (fun k _ => ?_)
  rw [Polynomial.iterate_derivative_C_mul, Polynomial.eval_C_mul, iteratedDeriv_chebFn]

section
variable {T : Type} [AddCommGroup T] [Module ℝ T]

/-- `∑ₖ ψₖ (S v)ₖ = ∑ᵢ (∑ₖ Sₖᵢ ψₖ) vᵢ` -/
theorem sum_mulVec (S : Mat ℝ) (v : List T) (hv : v.length = S.cols) (ψ : ℕ → ℝ) :
    ∑ k ∈ range S.rows, ψ k • nth (mulVec S v) k
      = ∑ i ∈ range v.length, (∑ k ∈ range S.rows, S.get k i * ψ k) • nth v i := by
  have e : ∀ k ∈ range S.rows, ψ k • nth (mulVec S v) k
      = ∑ i ∈ range v.length, (S.get k i * ψ k) • nth v i := fun k hk => by
    rw [nth_mulVec _ _ (Finset.mem_range.mp hk), ← hv, Finset.smul_sum]
    exact Finset.sum_congr rfl (fun i _ => by rw [smul_smul, mul_comm])
  rw [Finset.sum_congr rfl e, Finset.sum_comm]
  exact Finset.sum_congr rfl (fun i _ => by rw [Finset.sum_smul])

end


/-! ### real-to-real bases -/

section
variable {T : Type} [AddCommGroup T] [Module ℝ T] {k : Option CKind} {n : ℕ} {b : BaseR2r}

/-- the stencil matrix exists and has the right shape -/
theorem r2r_stencil (hb : newR2r k n = ok b) : ∃ S, (b.toBase T).stencil = ok S ∧
    S.rows = (b.toBase T).lenOrth ∧ S.cols = (b.toBase T).lenSpec := by
  cases k with
  | none =>
    obtain ⟨hn, rfl⟩ := chebyshev_inv hb
    exact ⟨_, rfl, rfl, rfl⟩
  | some k =>
    obtain ⟨c, hc, rfl⟩ := composite_inv hb
    have hw := Compo.wf_of_new hc
    obtain ⟨S, hS, r1, r2, -⟩ := wp_total.mp (Compo.wp_stencilMat hw)
    exact ⟨S, hS, by rw [r1]; show n = c.ortho.lenOrth; rw [hw.ortho]; rfl, by
      rw [r2]; rfl⟩

theorem mulVec_eye (v : List T) (n : ℕ) (hv : v.length = n) (S : Mat ℝ) (h1 : S.rows = n)
    (h2 : S.cols = n) (h : ∀ i < n, ∀ j < n, S.get i j = if i = j then 1 else 0) :
    mulVec S v = v := by
  refine ext_nth (by simp [h1, hv]) (fun i hi => ?_)
  have hi' : i < n := by simpa [h1] using hi
  rw [nth_mulVec _ _ (by omega), h2, Finset.sum_eq_single_of_mem i (Finset.mem_range.mpr hi')
    (fun j hj hne => by rw [h i hi' j (Finset.mem_range.mp hj), if_neg (Ne.symm hne), zero_smul]),
    h i hi' i hi', if_pos rfl, one_smul]

theorem r2r_gradient_val (hb : newR2r k n = ok b) (hg : RunsGrad k n) (d : ℕ) (v out : List T)
    (hv : v.length = (b.toBase T).lenSpec) (ho : out.length = (b.toBase T).lenOrth) :
    ∃ S g, (b.toBase T).stencil = ok S ∧ (b.toBase T).gradientSlice v out d = ok g ∧
      ∀ x : ℝ, chebVal ℝ g x = chebDeriv ℝ d (mulVec S v) x := by
  cases k with
  | none =>
    obtain ⟨hn, rfl⟩ := chebyshev_inv hb
    obtain ⟨g, h1, -, h2, -⟩ := Props.C04_gradient_is_derivative (K := ℝ) n hg ⟨n, n⟩
      (cheb_new_ok hn) v out hv ho d
    refine ⟨_, g, rfl, h1, fun x => ?_⟩
    have e : mulVec (Mat.eye n : Mat ℝ) v = v := mulVec_eye v n hv (Mat.eye n) rfl rfl
      (fun _ _ _ _ => rfl)
    exact (h2 x).trans (congrArg (fun l => chebDeriv ℝ d l x) e.symm)
  | some k =>
    obtain ⟨c, hc, rfl⟩ := composite_inv hb
    obtain ⟨S, g, h1, h2, -, h3⟩ := Props.C22_gradient_is_derivative k hg n c hc v out hv ho d
    exact ⟨S, g, h1, h2, h3⟩

theorem r2r_differentiates (hb : newR2r k n = ok b) (hg : RunsGrad k n) (d : ℕ) {S : Mat ℝ}
    (hS : (b.toBase T).stencil = ok S) :
    Differentiates (b.toBase T) d chebFn (stencilFn S) := by
  obtain ⟨φ, hφ⟩ := LinOp.computes (r2r_gradient_lin (R := ℝ) (T := T) hb hg d)
  obtain ⟨S', hS', hr, hcs⟩ := r2r_stencil (T := T) hb
  obtain rfl : S = S' := by rw [hS] at hS'; simpa using hS'
  refine ⟨φ, hφ, fun v hv x => ?_⟩
  obtain ⟨S', g, hS', h1, h2⟩ := r2r_gradient_val hb hg d v
    (List.replicate (b.toBase T).lenOrth 0) hv (by simp)
  obtain rfl : S = S' := by rw [hS] at hS'; simpa using hS'
  obtain rfl : φ v = g := by
    have := (hφ v (List.replicate (b.toBase T).lenOrth 0) hv (by simp)).1
    dsimp only at this
    rw [h1] at this; simpa using this.symm
  have h3 := h2 x
  unfold chebVal chebDeriv at h3
  rw [hφ.len v hv, mulVec_length] at h3
  refine h3.trans ?_
  have e := sum_mulVec S v (by rw [hv, hcs])
    (fun k => (Polynomial.derivative^[d] (Polynomial.Chebyshev.T ℝ k)).eval x)
  rw [e, hv]
  refine Finset.sum_congr rfl (fun i _ => ?_)
  rw [iteratedDeriv_stencilFn]
  simp only [iteratedDeriv_chebFn]

theorem r2r_evaluates (hb : newR2r k n = ok b) (hm : RunsMul k) {S : Mat ℝ}
    (hS : (b.toBase T).stencil = ok S) :
    Evaluates (b.toBase T) (fun i x s => stencilFn S i x * s) := by
  obtain ⟨β, hβ⟩ := LinOp.computes (r2r_backward_lin (T := T) hb hm)
  obtain ⟨S', hS', hr, hcs⟩ := r2r_stencil (T := T) hb
  obtain rfl : S = S' := by rw [hS] at hS'; simpa using hS'
  have key : ∃ x, (b.toBase T).coords = ok x ∧ x.length = (b.toBase T).lenPhys ∧
      ∀ v, v.length = (b.toBase T).lenSpec → ∀ j < (b.toBase T).lenPhys,
        nth (β v) j = (chebPoly ℝ (mulVec S v)).eval (nth x j) := by
    have hget : ∀ v g, v.length = (b.toBase T).lenSpec →
        (b.toBase T).backwardSlice v (List.replicate (b.toBase T).lenPhys 0) = ok g → β v = g := by
      intro v g hv h1
      have := (hβ v (List.replicate (b.toBase T).lenPhys 0) hv (by simp)).1
      rw [h1] at this; simpa using this.symm
    cases k with
    | none =>
      obtain ⟨hn, rfl⟩ := chebyshev_inv hb
      obtain ⟨x, hx, hxl, -⟩ := Props.C01_coords n ⟨n, n⟩ (cheb_new_ok hn)
      refine ⟨x, hx, hxl, fun v hv j hj => ?_⟩
      obtain ⟨x', g, hx', h1, h2, h3⟩ := Props.C02_backward_evaluates n ⟨n, n⟩
        (cheb_new_ok hn) v (List.replicate n 0) hv (List.length_replicate ..)
      obtain rfl : x = x' := by rw [hx] at hx'; simpa using hx'
      rw [hget v g hv h1, h3 j (by rw [hxl]; exact hj)]
      obtain rfl : Mat.eye n = S := by
        have : (ok (Mat.eye n) : Res (Mat ℝ)) = ok S := hS
        simpa using this
      rw [mulVec_eye v n hv (Mat.eye n) rfl rfl (fun _ _ _ _ => rfl)]
    | some k =>
      obtain ⟨c, hc, rfl⟩ := composite_inv hb
      have hcl : ∃ x, c.coords = ok x ∧ x.length = c.lenPhys := by
        obtain ⟨S, x, v, -, hx, -, -, hl, -⟩ := Props.C21_backward_evaluates k hm n c hc
          (List.replicate c.lenSpec 0) (List.replicate c.lenPhys 0) (List.length_replicate ..)
          (List.length_replicate ..)
        exact ⟨x, hx, hl⟩
      obtain ⟨x, hx, hxl⟩ := hcl
      refine ⟨x, hx, hxl, fun v hv j hj => ?_⟩
      obtain ⟨S', x', g, hS', hx', h1, -, -, h3⟩ := Props.C21_backward_evaluates k hm n c hc
        v (List.replicate c.lenPhys 0) hv (List.length_replicate ..)
      obtain rfl : x = x' := by rw [hx] at hx'; simpa using hx'
      obtain rfl : S = S' := by
        have h : c.stencilMat = ok S := hS
        rw [h] at hS'; simpa using hS'
      rw [hget v g hv h1, h3 j hj]
  obtain ⟨x, hx, hxl, he⟩ := key
  refine ⟨x, β, hx, hxl, hβ, fun v hv j hj => ?_⟩
  have e0 := chebDeriv_eq_eval ℝ 0 (mulVec S v) (nth x j)
  rw [Function.iterate_zero, id] at e0
  rw [he v hv j hj, ← e0]
  unfold chebDeriv
  rw [mulVec_length]
  have e := sum_mulVec S v (by rw [hv, hcs]) (fun k => chebFn k (nth x j))
  rw [← hv]
  exact e

end

/-! ### Fourier bases -/

theorem deriv_expFn (k : ℕ) : deriv (expFn k) = fun x => (Complex.I * k) * expFn k x := by
  funext x
  have h1 : HasDerivAt (fun x : ℝ => Complex.I * (k : ℂ) * (x : ℂ)) (Complex.I * k * 1) x :=
    (Complex.ofRealCLM.hasDerivAt (x := x)).const_mul _
  have := h1.cexp.deriv
  rw [show expFn k = fun x : ℝ => Complex.exp (Complex.I * k * x) from rfl, this]
  ring

theorem iteratedDeriv_expFn (d k : ℕ) (x : ℝ) :
    iteratedDeriv d (expFn k) x = (Complex.I * k) ^ d * expFn k x := by
  have : iteratedDeriv d (expFn k) = fun x => (Complex.I * k) ^ d * expFn k x := by
    induction d with
    | zero => simp
    | succ d ih =>
      rw [iteratedDeriv_succ, ih]
      funext x
      rw [deriv_const_mul_field, deriv_expFn]
      ring
  exact congrFun this x

theorem r2c_differentiates {n : ℕ} {b : Base ℝ ℂ ℂ} (h : IsR2c n b) (d : ℕ) :
    Differentiates b d expFn expFn := by
  obtain ⟨φ, hφ⟩ := LinOp.computes (h.gradLin d)
  obtain ⟨hn, b0, hb, rfl⟩ := h
  obtain rfl := r2c_inv hb
  refine ⟨φ, hφ, fun v hv x => Finset.sum_congr rfl (fun k hk => ?_)⟩
  have hk' : k < n / 2 + 1 := Finset.mem_range.mp hk
  have h1 := r2c_gradient_eq ⟨n, n / 2 + 1⟩ v (List.replicate (n / 2 + 1) 0) d hv
    (List.length_replicate ..)
  have h2 : φ v = (List.range (n / 2 + 1)).map (fun j => nth v j * (Complex.I * j) ^ d) := by
    have := (hφ v (List.replicate (n / 2 + 1) 0) hv (List.length_replicate ..)).1.symm.trans h1
    simpa using this
  rw [h2, nth_map_range _ _ _ hk', iteratedDeriv_expFn, smul_eq_mul, smul_eq_mul]
  ring

theorem r2c_evaluates {n : ℕ} {b : Base ℝ ℂ ℂ} (h : IsR2c n b) : Evaluates b (r2cTerm n) := by
  obtain ⟨β, hβ⟩ := LinOp.computes h.bwdLin
  obtain ⟨hn, b0, hb, rfl⟩ := h
  obtain rfl := r2c_inv hb
  have hx := fourierNodes_eq n hn
  refine ⟨_, β, hx, ?_, hβ, fun v hv j hj => ?_⟩
  · simp only [List.length_map, List.length_range]; rfl
  obtain ⟨x', g, hx', h1, h2, h3⟩ := Props.C28_backward_evaluates n hn ⟨n, n / 2 + 1⟩ rfl v
    (List.replicate n 0) hv (List.length_replicate ..)
  have hx'' : R2c.coords ⟨n, n / 2 + 1⟩ = _ := hx
  rw [hx''] at hx'
  have hx3 := ok.inj hx'
  have hg : β v = g := by
    have := (hβ v (List.replicate n 0) hv (List.length_replicate ..)).1.symm.trans h1
    simpa using this
  rw [hg, h3 j (by rw [← hx3, List.length_map, List.length_range]; exact hj), hx3]
  unfold trigR
  rw [Finset.mul_sum]
  rfl

theorem c2c_evaluates {n : ℕ} {b : Base ℂ ℂ ℂ} (h : IsC2c n b) : Evaluates b (c2cTerm n) := by
  obtain ⟨β, hβ⟩ := LinOp.computes h.bwdLin
  obtain ⟨hn, b0, hb, rfl⟩ := h
  obtain rfl := c2c_inv hb
  have hx := fourierNodes_eq n hn
  refine ⟨_, β, hx, ?_, hβ, fun v hv j hj => ?_⟩
  · simp only [List.length_map, List.length_range]; rfl
  obtain ⟨x', g, hx', h1, h2, h3⟩ := Props.C25_backward_evaluates n hn ⟨n, n⟩ rfl v
    (List.replicate n 0) hv (List.length_replicate ..)
  have hx'' : C2c.coords ⟨n, n⟩ = _ := hx
  rw [hx''] at hx'
  have hx3 := ok.inj hx'
  have hg : β v = g := by
    have := (hβ v (List.replicate n 0) hv (List.length_replicate ..)).1.symm.trans h1
    simpa using this
  rw [hg, h3 j (by rw [← hx3, List.length_map, List.length_range]; exact hj), hx3]
  unfold trigC
  rw [Finset.mul_sum]
  rfl

end Verif
