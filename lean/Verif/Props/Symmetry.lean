/-
Property theorems C89: symmetries of the data are symmetries of the coefficients.
-/
import Verif.Spec.Symmetry
import Verif.Props.Ortho
import Verif.Props.Stencils
import Verif.Props.Compo
import Verif.Props.FourierRel
import Verif.Proof.LinOps

namespace Verif.Props
open Res Spec Finset

section Aux
variable {T : Type} [AddCommGroup T]

@[simp] theorem alternate_length (c : List T) : (alternate c).length = c.length := by
  simp [alternate]

theorem nth_alternate (c : List T) (k : ℕ) :
    nth (alternate c) k = if k % 2 = 0 then nth c k else -nth c k := by
  rcases Nat.lt_or_ge k c.length with h | h
  · unfold alternate; rw [nth_map_range _ _ _ h]
  · rw [nth_of_le _ _ (by simpa using h), nth_of_le _ _ h]; simp

theorem alternate_alternate (c : List T) : alternate (alternate c) = c := by
  refine ext_nth (by simp) (fun k _ => ?_)
  rw [nth_alternate, nth_alternate]
  split <;> simp

theorem nth_alternate' (K : Type) [Field K] [Module K T] (c : List T) (k : ℕ) :
    nth (alternate c) k = ((-1 : K) ^ k) • nth c k := by
  rw [nth_alternate]
  rcases Nat.even_or_odd k with h | h
  · rw [if_pos (Nat.even_iff.1 h), h.neg_one_pow, one_smul]
  · rw [if_neg (by have := Nat.odd_iff.1 h; omega), h.neg_one_pow, neg_one_smul]

theorem nth_reverse {T : Type} [Zero T] (v : List T) {j : ℕ} (hj : j < v.length) :
    nth v.reverse j = nth v (v.length - 1 - j) := by
  rw [nth_eq_getElem _ _ (by simpa using hj), nth_eq_getElem _ _ (by omega), List.getElem_reverse]

end Aux

/-! ### Chebyshev -/

section Cheb
variable {K T : Type} [Field K] [AddCommGroup T] [Module K T]

theorem iterDeriv_comp_neg (k : ℕ) (p : Polynomial K) :
    Polynomial.derivative^[k] (p.comp (-Polynomial.X))
      = Polynomial.C ((-1 : K) ^ k) * (Polynomial.derivative^[k] p).comp (-Polynomial.X) := by
  induction k generalizing p with
  | zero => simp
  | succ k ih =>
    rw [Function.iterate_succ_apply, Function.iterate_succ_apply, Polynomial.derivative_comp,
      Polynomial.derivative_neg, Polynomial.derivative_X, neg_one_mul, Polynomial.iterate_derivative_neg,
      ih, pow_succ]
    simp

theorem T_comp_neg (i : ℕ) : (Polynomial.Chebyshev.T K i).comp (-Polynomial.X)
    = Polynomial.C ((-1 : K) ^ i) * Polynomial.Chebyshev.T K i := by
  induction i using Nat.twoStepInduction with
  | zero => simp
  | one => simp
  | more i h0 h1 =>
    push_cast at h1 ⊢
    rw [Polynomial.Chebyshev.T_add_two, Polynomial.sub_comp, Polynomial.mul_comp, Polynomial.mul_comp, h0,
      h1, Polynomial.X_comp]
    simp only [Polynomial.ofNat_comp, pow_succ, map_mul, map_neg, map_one]
    ring

theorem iterDeriv_T_neg (k i : ℕ) (x : K) :
    (Polynomial.derivative^[k] (Polynomial.Chebyshev.T K i)).eval (-x)
      = (-1) ^ k * ((-1) ^ i * (Polynomial.derivative^[k] (Polynomial.Chebyshev.T K i)).eval x) := by
  have h := iterDeriv_comp_neg k (Polynomial.Chebyshev.T K i)
  rw [T_comp_neg, Polynomial.iterate_derivative_C_mul] at h
  have h' := congrArg (Polynomial.eval x) h
  simp only [Polynomial.eval_mul, Polynomial.eval_C, Polynomial.eval_comp, Polynomial.eval_neg,
    Polynomial.eval_X] at h'
  rw [h', ← mul_assoc, ← mul_pow]
  simp

theorem chebDeriv_alternate (k : ℕ) (a : List T) (x : K) :
    chebDeriv K k (alternate a) x = ((-1 : K) ^ k) • chebDeriv K k a (-x) := by
  unfold chebDeriv
  rw [alternate_length, Finset.smul_sum]
  refine Finset.sum_congr rfl (fun i _ => ?_)
  rw [nth_alternate' K, iterDeriv_T_neg, smul_smul, smul_smul, ← mul_assoc, ← mul_pow]
  simp [mul_comm]

end Cheb

/-- C89: alternating the signs of the Chebyshev coefficients reverses the grid values. -/
theorem C89_backward_mirror (n : ℕ) (b : Cheb) (hb : Cheb.new n = ok b) (a out out' : List ℝ)
    (ha : a.length = b.lenSpec) (ho : out.length = b.lenPhys) (ho' : out'.length = b.lenPhys) :
    ∃ v, b.backwardSlice a out = ok v ∧ b.backwardSlice (alternate a) out' = ok v.reverse := by
  obtain ⟨x, v, hx, hv, hl, he⟩ := C02_backward_evaluates n b hb a out ha ho
  obtain ⟨x', v', hx', hv', hl', he'⟩ := C02_backward_evaluates n b hb (alternate a) out'
    (by simpa using ha) ho'
  obtain ⟨x'', hx'', hxl, -, -, -, -, hneg⟩ := C01_coords n b hb
  obtain rfl := Res.ok.inj (hx.symm.trans hx')
  obtain rfl := Res.ok.inj (hx.symm.trans hx'')
  refine ⟨v, hv, ?_⟩
  rw [hv']
  congr 1
  refine ext_nth (by simp [hl, hl']) (fun j hj => ?_)
  rw [nth_reverse _ (by omega), he' j (by omega), he _ (by omega), hl, hxl, hneg j (by omega)]
  have := chebDeriv_alternate (K := ℝ) 0 a (nth x j)
  rw [chebDeriv_eq_eval, chebDeriv_eq_eval] at this
  simpa using this

/-- C89: reversing the grid values alternates the signs of the Chebyshev coefficients. -/
theorem C89_forward_mirror (n : ℕ) (b : Cheb) (hb : Cheb.new n = ok b) (u out out' : List ℝ)
    (hu : u.length = b.lenPhys) (ho : out.length = b.lenSpec) (ho' : out'.length = b.lenSpec) :
    ∃ c, b.forwardSlice u out = ok c ∧ b.forwardSlice u.reverse out' = ok (alternate c) := by
  obtain ⟨rfl, hn⟩ := cheb_of_new hb
  obtain ⟨c, hc, hcu⟩ := C03_backward_forward n _ hb u out (List.replicate n 0) hu ho (by simp [Cheb.lenPhys])
  have hcl : c.length = n := by
    obtain ⟨a, ha, hal, -⟩ := wp_total.mp (wp_forwardSlice ⟨n, n⟩ n rfl hn u out hu ho)
    obtain rfl := Res.ok.inj (hc.symm.trans ha)
    exact hal
  obtain ⟨v, hv, hv'⟩ := C89_backward_mirror n _ hb c (List.replicate n 0) (List.replicate n 0) hcl
    (by simp [Cheb.lenPhys]) (by simp [Cheb.lenPhys])
  obtain rfl := Res.ok.inj (hcu.symm.trans hv)
  obtain ⟨w, hw, hw'⟩ := C03_forward_backward n _ hb (alternate c) (List.replicate n 0) out'
    ((alternate_length c).trans hcl) (by simp [Cheb.lenPhys]) ho'
  obtain rfl := Res.ok.inj (hv'.symm.trans hw)
  exact ⟨c, hc, hw'⟩

/-- C89: grid values are symmetric (antisymmetric) about the middle of the interval exactly when the
odd (even) Chebyshev coefficients are zero. -/
theorem C89_parity (n : ℕ) (b : Cheb) (hb : Cheb.new n = ok b) (u out : List ℝ)
    (hu : u.length = b.lenPhys) (ho : out.length = b.lenSpec) :
    ∃ c, b.forwardSlice u out = ok c ∧
      (u.reverse = u ↔ ∀ k < c.length, k % 2 = 1 → nth c k = 0) ∧
      (u.reverse = negate u ↔ ∀ k < c.length, k % 2 = 0 → nth c k = 0) := by
  obtain ⟨c, hc, hc'⟩ := C89_forward_mirror n b hb u out out hu ho ho
  obtain ⟨c0, hc0, hb0⟩ := C03_backward_forward n b hb u out (List.replicate b.lenPhys 0) hu ho (by simp)
  obtain rfl := Res.ok.inj (hc.symm.trans hc0)
  obtain ⟨rfl, hn⟩ := cheb_of_new hb
  have hcl : c.length = n := by
    obtain ⟨a, ha, hal, -⟩ := wp_total.mp (wp_forwardSlice ⟨n, n⟩ n rfl hn u out hu ho)
    obtain rfl := Res.ok.inj (hc.symm.trans ha)
    exact hal
  have hur : u.reverse.length = n := (List.length_reverse ..).trans hu
  have inj : ∀ w w' : List ℝ, w.length = n → w'.length = n →
      Cheb.forwardSlice ⟨n, n⟩ w out = Cheb.forwardSlice ⟨n, n⟩ w' out → w = w' := by
    intro w w' hw hw' h
    obtain ⟨d, hd, hd'⟩ := C03_backward_forward n _ hb w out (List.replicate n 0) hw ho (by simp [Cheb.lenPhys])
    obtain ⟨e, he, he'⟩ := C03_backward_forward n _ hb w' out (List.replicate n 0) hw' ho (by simp [Cheb.lenPhys])
    rw [h, he] at hd
    obtain rfl := Res.ok.inj hd
    exact Res.ok.inj (hd'.symm.trans he')
  have hneg : Cheb.forwardSlice ⟨n, n⟩ (negate u) out = ok (negate c) := by
    obtain ⟨x, v, hx, hv, hl, he⟩ := C02_backward_evaluates n _ hb c (List.replicate n 0) hcl
      (by simp [Cheb.lenPhys])
    obtain ⟨x', v', hx', hv', hl', he'⟩ := C02_backward_evaluates n _ hb (negate c) (List.replicate n 0)
      ((List.length_map ..).trans hcl) (by simp [Cheb.lenPhys])
    obtain rfl := Res.ok.inj (hx.symm.trans hx')
    obtain rfl := Res.ok.inj (hb0.symm.trans hv)
    obtain ⟨w, hw, hw'⟩ := C03_forward_backward n _ hb (negate c) (List.replicate n 0) out
      ((List.length_map ..).trans hcl) (by simp [Cheb.lenPhys]) ho
    obtain rfl := Res.ok.inj (hv'.symm.trans hw)
    rw [← hw']
    congr 1
    refine ext_nth (by simp [negate, hl, hl']) (fun j hj => ?_)
    have hj' : j < u.length := by simpa [negate] using hj
    rw [he' j (by omega), negate, nth_map _ _ _ hj', he j (by omega)]
    unfold chebPoly negate
    rw [List.length_map, Polynomial.eval_finset_sum, Polynomial.eval_finset_sum, ← Finset.sum_neg_distrib]
    refine Finset.sum_congr rfl (fun i hi => ?_)
    rw [nth_map _ _ _ (mem_range.1 hi)]
    simp
  refine ⟨c, hc, ?_, ?_⟩
  · constructor
    · intro h k hk hodd
      rw [h, hc] at hc'
      have := congrArg (fun l => nth l k) (Res.ok.inj hc')
      simp only [nth_alternate, if_neg (show ¬ k % 2 = 0 by omega)] at this
      linarith
    · intro h
      refine inj _ _ hur hu ?_
      rw [hc', hc]
      congr 1
      refine ext_nth (by simp) (fun k hk => ?_)
      rw [nth_alternate]
      split
      · rfl
      · rw [h k (by simpa using hk) (by omega)]; simp
  · constructor
    · intro h k hk heven
      rw [h, hneg] at hc'
      have := congrArg (fun l => nth l k) (Res.ok.inj hc')
      simp only [nth_alternate, if_pos heven, negate, nth_map _ _ _ hk] at this
      linarith
    · intro h
      refine inj _ _ hur ((List.length_map ..).trans hu) ?_
      rw [hc', hneg]
      congr 1
      refine ext_nth (by simp [negate]) (fun k hk => ?_)
      have hk' : k < c.length := by simpa using hk
      rw [nth_alternate, negate, nth_map _ _ _ hk']
      split
      · rw [h k hk' (by omega)]; simp
      · rfl

section Grad
variable {K T : Type} [Field K] [DecidableEq K] [CharZero K] [AddCommGroup T] [Module K T]

/-- C89: the derivative of the mirrored function is the mirrored derivative, with the sign `(-1)^d`. -/
theorem C89_gradient_mirror (n : ℕ) (hn : 3 ≤ n) (b : Cheb) (hb : Cheb.new n = ok b)
    (a out out' : List T) (ha : a.length = b.lenSpec) (ho : out.length = b.lenOrth)
    (ho' : out'.length = b.lenOrth) (d : ℕ) :
    ∃ g, b.gradientSlice K a out d = ok g ∧ b.gradientSlice K (alternate a) out' d
      = ok (if d % 2 = 0 then alternate g else negate (alternate g)) := by
  obtain ⟨g, hg, hl, hv, -⟩ := C04_gradient_is_derivative (K := K) n hn b hb a out ha ho d
  obtain ⟨g', hg', -, -, hu⟩ := C04_gradient_is_derivative (K := K) n hn b hb (alternate a) out'
    (by simpa using ha) ho' d
  refine ⟨g, hg, ?_⟩
  rw [hg']
  congr 1
  refine (hu _ ?_ fun x => ?_).symm
  · split <;> simp [negate, hl]
  · have h0 := chebDeriv_alternate (K := K) 0 g x
    rw [pow_zero, one_smul, ← chebVal_eq_chebDeriv, ← chebVal_eq_chebDeriv, hv] at h0
    rw [chebDeriv_alternate]
    rcases Nat.even_or_odd d with h | h
    · rw [if_pos (Nat.even_iff.1 h), h.neg_one_pow, one_smul, h0]
    · rw [if_neg (by have := Nat.odd_iff.1 h; omega), h.neg_one_pow, neg_one_smul, ← h0]
      unfold chebVal negate
      rw [List.length_map, ← Finset.sum_neg_distrib]
      refine Finset.sum_congr rfl (fun i hi => ?_)
      rw [nth_map _ _ _ (mem_range.1 hi), smul_neg]

end Grad

/-! ### Composite bases -/

section Compo
variable {K T : Type} [Field K] [LinearOrder K] [IsStrictOrderedRing K] [AddCommGroup T]
  [Module K T]

theorem mat_parity {k : CKind} (hk : k ≠ .dirichletNeumann) (i j : ℕ) (h : (i + j) % 2 = 1) :
    k.mat K i j = 0 := by
  have ho : k.off = 2 := by cases k <;> first | rfl | exact absurd rfl hk
  unfold CKind.mat stMat
  rw [ho, if_neg (by omega), if_neg (by omega), if_neg (by omega)]
  simp

theorem mat_sign {k : CKind} (hk : k ≠ .dirichletNeumann) (i j : ℕ) :
    (-1 : K) ^ i * k.mat K i j = k.mat K i j * (-1) ^ j := by
  rcases Nat.mod_two_eq_zero_or_one (i + j) with h | h
  · have : (-1 : K) ^ i = (-1) ^ j := by
      have h2 : Even (i + j) := Nat.even_iff.2 h
      rcases Nat.even_add.1 h2 with h3
      rcases Nat.even_or_odd i with hi | hi
      · rw [hi.neg_one_pow, (h3.1 hi).neg_one_pow]
      · have hj : Odd j := by
          rw [← Nat.not_even_iff_odd] at hi ⊢
          exact fun hj => hi (h3.2 hj)
        rw [hi.neg_one_pow, hj.neg_one_pow]
    rw [this, mul_comm]
  · rw [mat_parity hk i j h]; simp

theorem mulVec_alternate {k : CKind} (hk : k ≠ .dirichletNeumann) {n : ℕ} {b : Compo K}
    (hb : Compo.new k n = ok b) {S : Mat K} (hS : b.stencilMat = ok S) (v : List T) :
    mulVec S (alternate v) = alternate (mulVec S v) := by
  obtain ⟨S', hS', h1, h2, h3⟩ := wp_total.mp
    (Compo.wp_stencilMat (Q := fun _ => False) (Compo.wf_of_new hb))
  obtain rfl := Res.ok.inj (hS.symm.trans hS')
  refine ext_nth (by simp) (fun i hi => ?_)
  have hi' : i < S.rows := by simpa using hi
  rw [nth_alternate' K, nth_mulVec _ _ hi', nth_mulVec _ _ hi', Finset.smul_sum]
  refine Finset.sum_congr rfl (fun j hj => ?_)
  have hj' : j < b.m := by rw [← h2]; exact mem_range.1 hj
  rw [nth_alternate' K, smul_smul, smul_smul, h3 i j hj', mat_sign hk]

/-- C89: `to_ortho` of the Dirichlet and Neumann bases commutes with mirroring. -/
theorem C89_to_ortho_mirror (k : CKind) (hk : k = .dirichlet ∨ k = .neumann) (n : ℕ) (b : Compo K)
    (hb : Compo.new k n = ok b) (v out out' : List T) (hv : v.length = b.lenSpec)
    (ho : out.length = b.lenOrth) (ho' : out'.length = b.lenOrth) :
    ∃ u, b.toOrthoSlice v out = ok u ∧ b.toOrthoSlice (alternate v) out' = ok (alternate u) := by
  have hk' : k = .dirichlet ∨ k = .neumann ∨ k = .dirichletNeumann := by tauto
  have hk'' : k ≠ .dirichletNeumann := by rcases hk with rfl | rfl <;> simp
  obtain ⟨S, hS, h⟩ := C11_to_ortho_is_stencil k hk' n b hb v out hv ho
  obtain ⟨S', hS', h'⟩ := C11_to_ortho_is_stencil k hk' n b hb (alternate v) out' (by simpa using hv) ho'
  obtain rfl := Res.ok.inj (hS.symm.trans hS')
  exact ⟨_, h, by rw [h', mulVec_alternate hk'' hb hS]⟩

/-- C89: `from_ortho` commutes with mirroring for every composite base except Dirichlet-Neumann (whose
boundary conditions are not symmetric). -/
theorem C89_from_ortho_mirror (k : CKind) (hk : k ≠ .dirichletNeumann) (n : ℕ) (b : Compo K)
    (hb : Compo.new k n = ok b) (hn : k.minSolve ≤ n) (u out out' : List T) (hu : u.length = b.lenOrth)
    (ho : out.length = b.lenSpec) (ho' : out'.length = b.lenSpec) :
    ∃ x, b.fromOrthoSlice u out = ok x ∧ b.fromOrthoSlice (alternate u) out' = ok (alternate x) := by
  obtain ⟨S, hS, h⟩ := C14_from_ortho_normal_equations k n b hb hn u out hu ho
  obtain ⟨S', hS', h'⟩ := C14_from_ortho_normal_equations k n b hb hn (alternate u) out'
    (by simpa using hu) ho'
  obtain rfl := Res.ok.inj (hS.symm.trans hS')
  obtain ⟨x, hx, hxl⟩ := C19_from_ortho_total k n b hb hn u out hu ho
  refine ⟨x, hx, (h' _).2 ⟨by simpa using hxl, fun j hj => ?_⟩⟩
  have he := ((h x).1 hx).2 j hj
  obtain ⟨S', hS', h1, h2, h3⟩ := wp_total.mp
    (Compo.wp_stencilMat (Q := fun _ => False) (Compo.wf_of_new hb))
  obtain rfl := Res.ok.inj (hS.symm.trans hS')
  rw [mulVec_alternate hk hb hS]
  have key : ∀ w : List T, ∑ i ∈ range n, S.get i j • nth (alternate w) i
      = ((-1 : K) ^ j) • ∑ i ∈ range n, S.get i j • nth w i := by
    intro w
    rw [Finset.smul_sum]
    refine Finset.sum_congr rfl (fun i _ => ?_)
    rw [nth_alternate' K, smul_smul, smul_smul, h3 i j hj, mul_comm, mat_sign hk, mul_comm]
  rw [key, key, he]

/-- C89: gradients of the Dirichlet and Neumann bases and mirroring. -/
theorem C89_composite_gradient_mirror (k : CKind) (hk : k = .dirichlet ∨ k = .neumann) (n : ℕ)
    (b : Compo K) (hb : Compo.new k n = ok b) (v out out' : List T) (hv : v.length = b.lenSpec)
    (ho : out.length = b.lenOrth) (ho' : out'.length = b.lenOrth) (d : ℕ) :
    ∃ g, b.gradientSlice v out d = ok g ∧ b.gradientSlice (alternate v) out' d
      = ok (if d % 2 = 0 then alternate g else negate (alternate g)) := by
  have hw := Compo.wf_of_new hb
  have hn4 : 4 ≤ n := le_trans (by rcases hk with rfl | rfl <;> decide) hw.le
  have ho2 : b.lenOrth = n := by simp [Compo.lenOrth, Cheb.lenOrth, hw.ortho]
  obtain ⟨u, hu, hu'⟩ := C89_to_ortho_mirror k hk n b hb v (List.replicate b.lenOrth 0)
    (List.replicate b.lenOrth 0) hv (by simp) (by simp)
  have hul : u.length = n := by
    have hk' : k = .dirichlet ∨ k = .neumann ∨ k = .dirichletNeumann := by tauto
    obtain ⟨S, hS, h⟩ := C11_to_ortho_is_stencil k hk' n b hb v (List.replicate b.lenOrth 0) hv (by simp)
    obtain ⟨S', hS', h1, -, -⟩ := wp_total.mp
      (Compo.wp_stencilMat (Q := fun _ => False) (Compo.wf_of_new hb))
    obtain rfl := Res.ok.inj (hS.symm.trans hS')
    obtain rfl := Res.ok.inj (hu.symm.trans h)
    simp [h1]
  obtain ⟨g, hg, hg'⟩ := C89_gradient_mirror (K := K) n (by omega) ⟨n, n⟩
    (cheb_new_ok (by omega)) u out out' hul (by rw [ho, ho2]; rfl) (by rw [ho', ho2]; rfl) d
  refine ⟨g, ?_, ?_⟩
  · unfold Compo.gradientSlice
    dsimp only
    rw [hu, bind_ok, hw.ortho, hg]
  · unfold Compo.gradientSlice
    dsimp only
    rw [hu', bind_ok, hw.ortho, hg']

end Compo

/-- C89: transforms of the symmetric composite bases and mirroring. -/
theorem C89_composite_forward_mirror (k : CKind) (hk : k ≠ .dirichletNeumann) (n : ℕ) (b : Compo ℝ)
    (hb : Compo.new k n = ok b) (hn : k.minSolve ≤ n) (u out out' : List ℝ) (hu : u.length = b.lenPhys)
    (ho : out.length = b.lenSpec) (ho' : out'.length = b.lenSpec) :
    ∃ c, b.forwardSlice u out = ok c ∧ b.forwardSlice u.reverse out' = ok (alternate c) := by
  have hw := Compo.wf_of_new hb
  have ho2 : b.lenOrth = n := by simp [Compo.lenOrth, Cheb.lenOrth, hw.ortho]
  have hn2 : 2 ≤ n := le_trans (by have := k.nbc_pos; have := k.nbc_le; omega) hw.le
  have hp : b.lenPhys = n := hw.n_eq
  obtain ⟨c, hc, hc'⟩ := C89_forward_mirror n ⟨n, n⟩ (cheb_new_ok hn2) u (List.replicate b.lenOrth 0)
    (List.replicate b.lenOrth 0) (by rw [hu, hp]; rfl) (by simp [ho2, Cheb.lenSpec])
    (by simp [ho2, Cheb.lenSpec])
  have hcl : c.length = n := by
    obtain ⟨a, ha, hal, -⟩ := wp_total.mp (wp_forwardSlice ⟨n, n⟩ n rfl hn2 u
      (List.replicate b.lenOrth 0) (by rw [hu, hp]) (by simp [ho2]))
    obtain rfl := Res.ok.inj (hc.symm.trans ha)
    exact hal
  obtain ⟨x, hx, hx'⟩ := C89_from_ortho_mirror k hk n b hb hn c out out' (by rw [hcl, ho2]) ho ho'
  refine ⟨x, ?_, ?_⟩
  · unfold Compo.forwardSlice
    dsimp only
    rw [hw.ortho, hc, bind_ok, hx]
  · unfold Compo.forwardSlice
    dsimp only
    rw [hw.ortho, hc', bind_ok, hx']

/-- C89: transforms of the symmetric composite bases and mirroring. -/
theorem C89_composite_backward_mirror (k : CKind) (hk : k = .dirichlet ∨ k = .neumann) (n : ℕ)
    (b : Compo ℝ) (hb : Compo.new k n = ok b) (a out out' : List ℝ) (ha : a.length = b.lenSpec)
    (ho : out.length = b.lenPhys) (ho' : out'.length = b.lenPhys) :
    ∃ v, b.backwardSlice a out = ok v ∧ b.backwardSlice (alternate a) out' = ok v.reverse := by
  have hw := Compo.wf_of_new hb
  have hn2 : 2 ≤ n := le_trans (by have := k.nbc_pos; have := k.nbc_le; omega) hw.le
  have hp : b.lenPhys = n := hw.n_eq
  have hk' : k = .dirichlet ∨ k = .neumann ∨ k = .dirichletNeumann := by tauto
  obtain ⟨u, hu, hu'⟩ := C89_to_ortho_mirror k hk n b hb a (List.replicate b.lenOrth 0)
    (List.replicate b.lenOrth 0) ha (by simp) (by simp)
  have hul : u.length = n := by
    obtain ⟨S, hS, h⟩ := C11_to_ortho_is_stencil k hk' n b hb a (List.replicate b.lenOrth 0) ha (by simp)
    obtain ⟨S', hS', h1, -, -⟩ := wp_total.mp
      (Compo.wp_stencilMat (Q := fun _ => False) (Compo.wf_of_new hb))
    obtain rfl := Res.ok.inj (hS.symm.trans hS')
    obtain rfl := Res.ok.inj (hu.symm.trans h)
    simp [h1]
  obtain ⟨v, hv, hv'⟩ := C89_backward_mirror n ⟨n, n⟩ (cheb_new_ok hn2) u out out' hul
    (by rw [ho, hp]; rfl) (by rw [ho', hp]; rfl)
  refine ⟨v, ?_, ?_⟩
  · unfold Compo.backwardSlice
    dsimp only
    rw [hu, bind_ok, hw.ortho, hv]
  · unfold Compo.backwardSlice
    dsimp only
    rw [hu', bind_ok, hw.ortho, hv']

/-! ### Fourier -/

theorem nth_rotate {T : Type} [Zero T] (u : List T) (s : ℕ) {j : ℕ} (hj : j < u.length) :
    nth (u.rotate s) j = nth u ((j + s) % u.length) := by
  have := Nat.mod_lt (j + s) (show 0 < u.length by omega)
  rw [nth_eq_getElem _ _ (by simpa using hj), nth_eq_getElem _ _ this, List.getElem_rotate]

theorem twiddle_mod (n : ℕ) (hn : 1 ≤ n) (s : ℤ) (j k : ℕ) :
    twiddle s n (j % n) k = twiddle s n j k := by
  unfold twiddle
  have hn' : (n : ℂ) ≠ 0 := by exact_mod_cast (by omega : n ≠ 0)
  rw [Complex.exp_eq_exp_iff_exists_int]
  refine ⟨-(s * ((j / n : ℕ) : ℤ) * k), ?_⟩
  have : (j : ℂ) = (j % n : ℕ) + n * (j / n : ℕ) := by exact_mod_cast (Nat.mod_add_div j n).symm
  rw [this, Int.cast_neg, Int.cast_mul, Int.cast_mul, Int.cast_natCast, Int.cast_natCast]
  field_simp
  ring

theorem sum_shift {M : Type} [AddCommMonoid M] (n s : ℕ) (hn : 1 ≤ n) (f : ℕ → M) :
    ∑ j ∈ range n, f ((j + s) % n) = ∑ j ∈ range n, f j := by
  refine Finset.sum_bij (fun j _ => (j + s) % n) (fun j _ => mem_range.2 (Nat.mod_lt _ hn)) ?_ ?_
    (fun _ _ => rfl)
  · intro a ha c hc h
    have := mem_range.1 ha
    have := mem_range.1 hc
    have h' : a ≡ c [MOD n] := Nat.ModEq.add_right_cancel' s h
    rwa [Nat.ModEq, Nat.mod_eq_of_lt ‹a < n›, Nat.mod_eq_of_lt ‹c < n›] at h'
  · intro j hj
    have hj' := mem_range.1 hj
    refine ⟨(j + (n - s % n)) % n, mem_range.2 (Nat.mod_lt _ hn), ?_⟩
    have hs := Nat.mod_lt s hn
    rw [Nat.mod_add_mod, ← Nat.add_mod_mod, show j + (n - s % n) + s % n = j + n by omega,
      Nat.add_mod_right, Nat.mod_eq_of_lt hj']

theorem dft_shift (n s : ℕ) (hn : 1 ≤ n) (x : ℕ → ℂ) (k : ℕ) :
    dft (-1) n (fun j => x ((j + s) % n)) k
      = Complex.exp (Complex.I * k * ((2 * Real.pi * s / n : ℝ) : ℂ)) * dft (-1) n x k := by
  unfold dft
  rw [Finset.mul_sum, ← sum_shift n s hn (fun j => _ * (x j * twiddle (-1) n j k))]
  refine Finset.sum_congr rfl (fun j _ => ?_)
  have h := twiddle_mod n hn (-1) (j + s) k
  push_cast at h
  rw [h]
  have hn' : (n : ℂ) ≠ 0 := by exact_mod_cast (by omega : n ≠ 0)
  rw [mul_left_comm]
  congr 1
  unfold twiddle
  rw [← Complex.exp_add]
  congr 1
  push_cast
  field_simp
  ring

theorem nth_turn (θ : ℝ) (c : List ℂ) {k : ℕ} (hk : k < c.length) :
    nth (turn θ c) k = Complex.exp (Complex.I * k * θ) * nth c k := nth_map_range _ _ _ hk

/-- C89: shifting complex periodic data by `s` grid points multiplies coefficient `k` by
`exp (i k θ)`, `θ = 2πs/n`. -/
theorem C89_c2c_shift (n : ℕ) (hn : 1 ≤ n) (b : C2c) (hb : C2c.new n = ok b) (u out out' : List ℂ)
    (hu : u.length = b.lenPhys) (ho : out.length = b.lenSpec) (ho' : out'.length = b.lenSpec) (s : ℕ) :
    ∃ c, b.forwardSlice u out = ok c ∧
      b.forwardSlice (u.rotate s) out' = ok (turn (2 * Real.pi * s / n) c) := by
  obtain rfl := c2c_of_new hb
  change u.length = n at hu
  have hr : (u.rotate s).length = n := by simpa using hu
  refine ⟨_, wp_c2c_forward n u out hu ho, ?_⟩
  rw [wp_c2c_forward n _ out' hr ho']
  congr 1
  refine ext_nth (by simp [turn, length_fftFwd]) (fun k hk => ?_)
  have hk' : k < n := by rw [length_fftFwd, hr] at hk; exact hk
  rw [nth_turn _ _ (by rw [length_fftFwd]; omega), nth_fftFwd _ (by omega), nth_fftFwd _ (by omega), hr, hu,
    ← dft_shift n s hn]
  exact dft_congr k (fun j hj => by rw [nth_rotate _ _ (by omega), hu])

/-- C89: shifting real periodic data by `s` grid points multiplies coefficient `k` by `exp (i k θ)`,
`θ = 2πs/n`. -/
theorem C89_r2c_shift (n : ℕ) (hn : 1 ≤ n) (b : R2c) (hb : R2c.new n = ok b) (u : List ℝ)
    (out out' : List ℂ) (hu : u.length = b.lenPhys) (ho : out.length = b.lenSpec)
    (ho' : out'.length = b.lenSpec) (s : ℕ) :
    ∃ c, b.forwardSlice u out = ok c ∧
      b.forwardSlice (u.rotate s) out' = ok (turn (2 * Real.pi * s / n) c) := by
  obtain rfl := r2c_of_new hb
  change u.length = n at hu
  have hr : (u.rotate s).length = n := by simpa using hu
  refine ⟨_, r2c_forward_eq n u out hu ho, ?_⟩
  rw [r2c_forward_eq n _ out' hr ho']
  congr 1
  refine ext_nth (by simp [turn, length_rfftFwd]) (fun k hk => ?_)
  have hk' : k < n / 2 + 1 := by rw [length_rfftFwd, hr] at hk; exact hk
  rw [nth_turn _ _ (by rw [length_rfftFwd, hu]; omega), nth_rfftFwd _ (by rw [hr]; omega),
    nth_rfftFwd _ (by rw [hu]; omega), hr, hu, ← dft_shift n s hn]
  exact dft_congr k (fun j hj => by rw [nth_rotate _ _ (by omega), hu])

/-- C89: differentiation of real periodic data commutes with shifts, by any angle. -/
theorem C89_r2c_gradient_shift (n : ℕ) (b : R2c) (hb : R2c.new n = ok b) (c out out' : List ℂ)
    (hc : c.length = b.lenSpec) (ho : out.length = b.lenSpec) (ho' : out'.length = b.lenSpec) (d : ℕ)
    (hd : d < 2 ^ 31) (θ : ℝ) :
    ∃ g, b.gradientSlice c out d = ok g ∧ b.gradientSlice (turn θ c) out' d = ok (turn θ g) := by
  obtain ⟨g, hg, hl, he, -⟩ := C29_gradient n b hb c out hc ho d hd
  obtain ⟨g', hg', hl', he', -⟩ := C29_gradient n b hb (turn θ c) out' (by simpa [turn] using hc) ho' d hd
  refine ⟨g, hg, ?_⟩
  rw [hg']
  congr 1
  refine ext_nth (by simp [turn, hl, hl']) (fun k hk => ?_)
  rw [he' k (by omega), nth_turn _ _ (by omega), nth_turn _ _ (by omega), he k (by omega)]
  ring

theorem nth_reflect {T : Type} [AddCommGroup T] (u : List T) {j : ℕ} (hj : j < u.length) :
    nth (reflect u) j = nth u (if j = 0 then 0 else u.length - j) := nth_map_range _ _ _ hj

theorem dft_reflect (n : ℕ) (hn : 1 ≤ n) (s : ℤ) (x : ℕ → ℂ) (k : ℕ) :
    dft s n (fun j => x (if j = 0 then 0 else n - j)) k = dft (-s) n x k := by
  unfold dft
  refine sum_reflect n hn _ _ ?_ ?_
  · simp [twiddle_zero]
  · intro j h1 h2
    have h := twiddle_reflect n (n - j) k (by omega) hn s
    rw [show n - (n - j) = j by omega] at h
    simp only [if_neg (show ¬ j = 0 by omega), h]

/-- C89: reflecting complex periodic data (`x ↦ 2π - x`) exchanges the coefficients of `k` and `-k`. -/
theorem C89_c2c_reflect (n : ℕ) (hn : 1 ≤ n) (b : C2c) (hb : C2c.new n = ok b) (u out out' : List ℂ)
    (hu : u.length = b.lenPhys) (ho : out.length = b.lenSpec) (ho' : out'.length = b.lenSpec) :
    ∃ c, b.forwardSlice u out = ok c ∧ b.forwardSlice (reflect u) out' = ok (reflect c) := by
  obtain rfl := c2c_of_new hb
  change u.length = n at hu
  have hr : (reflect u).length = n := by simpa [reflect] using hu
  refine ⟨_, wp_c2c_forward n u out hu ho, ?_⟩
  rw [wp_c2c_forward n _ out' hr ho']
  congr 1
  refine ext_nth (by simp [reflect, length_fftFwd]) (fun k hk => ?_)
  have hk' : k < n := by rw [length_fftFwd, hr] at hk; exact hk
  rw [nth_reflect _ (by rw [length_fftFwd]; omega), nth_fftFwd _ (by omega), hr, length_fftFwd, hu,
    nth_fftFwd _ (by split <;> omega), hu]
  have h := dft_reflect n hn (-1) (nth u) k
  push_cast at h
  rw [neg_neg] at h
  rw [show dft (-1) n (nth (reflect u)) k = dft (-1) n (fun j => nth u (if j = 0 then 0 else n - j)) k from
    dft_congr k (fun j hj => by rw [nth_reflect _ (by omega), hu]), h]
  unfold dft
  refine Finset.sum_congr rfl (fun j _ => ?_)
  congr 1
  by_cases h0 : k = 0
  · subst h0
    rw [if_pos rfl]; unfold twiddle; simp
  · rw [if_neg h0, twiddle_comm, twiddle_comm (-1)]
    have := twiddle_reflect n k j (by omega) hn (-1)
    push_cast at this
    rw [this, neg_neg]

/-- C89: reflecting real periodic data conjugates the coefficients. -/
theorem C89_r2c_reflect (n : ℕ) (hn : 1 ≤ n) (b : R2c) (hb : R2c.new n = ok b) (u : List ℝ)
    (out out' : List ℂ) (hu : u.length = b.lenPhys) (ho : out.length = b.lenSpec)
    (ho' : out'.length = b.lenSpec) :
    ∃ c, b.forwardSlice u out = ok c ∧
      b.forwardSlice (reflect u) out' = ok (c.map (starRingEnd ℂ)) := by
  obtain rfl := r2c_of_new hb
  change u.length = n at hu
  have hr : (reflect u).length = n := by simpa [reflect] using hu
  refine ⟨_, r2c_forward_eq n u out hu ho, ?_⟩
  rw [r2c_forward_eq n _ out' hr ho']
  congr 1
  refine ext_nth (by simp [length_rfftFwd, reflect]) (fun k hk => ?_)
  have hk' : k < n / 2 + 1 := by rw [length_rfftFwd, hr] at hk; exact hk
  rw [nth_map _ _ _ (by rw [length_rfftFwd, hu]; exact hk'), nth_rfftFwd _ (by rw [hr]; omega),
    nth_rfftFwd _ (by rw [hu]; omega), hr, hu]
  have h := dft_reflect n hn (-1) (fun j => ((nth u j : ℝ) : ℂ)) k
  push_cast at h
  rw [neg_neg] at h
  rw [show dft (-1) n (fun j => ((nth (reflect u) j : ℝ) : ℂ)) k
      = dft (-1) n (fun j => ((nth u (if j = 0 then 0 else n - j) : ℝ) : ℂ)) k from
    dft_congr k (fun j hj => by rw [nth_reflect _ (by omega), hu]), h]
  unfold dft
  rw [map_sum]
  refine Finset.sum_congr rfl (fun j _ => ?_)
  have := conj_twiddle n j k (-1)
  push_cast at this
  rw [map_mul, this, neg_neg, Complex.conj_ofReal]

/-! ### The hypotheses are met -/

example : ∃ b : Cheb, Cheb.new 4 = ok b ∧
    ∃ v, b.backwardSlice ([1, 2, 3, 4] : List ℝ) [0, 0, 0, 0] = ok v ∧
      b.backwardSlice ([1, -2, 3, -4] : List ℝ) [5, 6, 7, 8] = ok v.reverse := by
  refine ⟨⟨4, 4⟩, cheb_new_ok (by norm_num), ?_⟩
  have h := C89_backward_mirror 4 ⟨4, 4⟩ (cheb_new_ok (by norm_num)) [1, 2, 3, 4] [0, 0, 0, 0] [5, 6, 7, 8]
    rfl rfl rfl
  simpa [alternate, List.range_succ, nth] using h

example (b : R2c) (hb : R2c.new 4 = ok b) : ∃ c,
    b.forwardSlice ([1, 2, 3, 4] : List ℝ) [0, 0, 0] = ok c ∧
      b.forwardSlice ([2, 3, 4, 1] : List ℝ) [5, 6, 7] = ok (turn (2 * Real.pi * (1 : ℕ) / (4 : ℕ)) c) := by
  have h := C89_r2c_shift 4 (by norm_num) b hb [1, 2, 3, 4] [0, 0, 0] [5, 6, 7]
    (by rw [r2c_of_new hb]; rfl) (by rw [r2c_of_new hb]; rfl) (by rw [r2c_of_new hb]; rfl) 1
  simpa using h

end Verif.Props
