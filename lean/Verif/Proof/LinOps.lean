/-
Every slice operator of every base computes a linear function of its input.
-/
import Verif.Spec.Ops
import Verif.Props.Compo
import Verif.Props.Fourier
import Verif.Model.Bases

namespace Verif
open Res Spec Finset

section General
variable {R S T U : Type} [CommRing R] [AddCommGroup S] [Module R S] [AddCommGroup T]
  [Module R T] [AddCommGroup U] [Module R U]

@[simp] theorem linComb_length (α β : R) (x y : List T) : (linComb R α β x y).length = x.length := by
  simp [linComb]

theorem nth_linComb (α β : R) (x y : List T) {i : ℕ} (h : i < x.length) :
    nth (linComb R α β x y) i = α • nth x i + β • nth y i := nth_map_range _ _ _ h

/-- A slice operator whose result is determined by a linear relation computes a linear function. -/
theorem linOp_of_rel {f : List S → List T → Res (List T)} {n m : ℕ} (P : List S → List T → Prop)
    (hex : ∀ x out, x.length = n → out.length = m → ∃ y, f x out = ok y ∧ y.length = m ∧ P x y)
    (huniq : ∀ x y y', x.length = n → y.length = m → y'.length = m → P x y → P x y' → y = y')
    (hlin : ∀ (α β : R) x y x' y', x.length = n → x'.length = n → y.length = m → y'.length = m →
      P x y → P x' y' → P (linComb R α β x x') (linComb R α β y y')) : LinOp R f n m := by
  have h0 : ∀ x : List S, ∃ y, x.length = n → y.length = m ∧ P x y := fun x => by
    by_cases hx : x.length = n
    · obtain ⟨y, -, h1, h2⟩ := hex x (List.replicate m 0) hx (by simp)
      exact ⟨y, fun _ => ⟨h1, h2⟩⟩
    · exact ⟨[], fun h => absurd h hx⟩
  choose g hg using h0
  refine ⟨g, fun x out hx ho => ?_, fun α β x y hx hy => ?_⟩
  · obtain ⟨y, h1, h2, h3⟩ := hex x out hx ho
    obtain ⟨k1, k2⟩ := hg x hx
    rw [h1, huniq x y (g x) hx h2 k1 h3 k2]
    exact ⟨rfl, k1⟩
  · obtain ⟨k1, k2⟩ := hg x hx
    obtain ⟨l1, l2⟩ := hg y hy
    have hc : (linComb R α β x y).length = n := by simpa using hx
    obtain ⟨c1, c2⟩ := hg _ hc
    exact huniq _ _ _ hc c1 (by simpa using k1) c2 (hlin α β x (g x) y (g y) hx hy k1 l1 k2 l2)

/-- Explicit formula: each entry of the result is a linear function of the input entries. -/
theorem linOp_of_formula {f : List S → List T → Res (List T)} {n m : ℕ} (A : ℕ → ℕ → S → T)
    (hA : ∀ k j (α β : R) a b, A k j (α • a + β • b) = α • A k j a + β • A k j b)
    (hex : ∀ x out, x.length = n → out.length = m →
      f x out = ok ((List.range m).map (fun k => ∑ j ∈ range n, A k j (nth x j)))) :
    LinOp R f n m := by
  refine ⟨fun x => (List.range m).map (fun k => ∑ j ∈ range n, A k j (nth x j)),
    fun x out hx ho => ⟨hex x out hx ho, by simp⟩, fun α β x y hx hy => ?_⟩
  refine ext_nth (by simp) (fun k hk => ?_)
  have hk' : k < m := by simpa using hk
  rw [nth_map_range _ _ _ hk', nth_linComb _ _ _ _ (by simpa), nth_map_range _ _ _ hk',
    nth_map_range _ _ _ hk', Finset.smul_sum, Finset.smul_sum, ← Finset.sum_add_distrib]
  refine Finset.sum_congr rfl (fun j hj => ?_)
  rw [nth_linComb _ _ _ _ (by rw [hx]; exact Finset.mem_range.mp hj), hA]

/-- Entrywise formula. -/
theorem linOp_of_diag {f : List S → List T → Res (List T)} {n : ℕ} (d : ℕ → S → T)
    (hd : ∀ k (α β : R) a b, d k (α • a + β • b) = α • d k a + β • d k b)
    (hex : ∀ x out, x.length = n → out.length = n →
      f x out = ok ((List.range n).map (fun k => d k (nth x k)))) :
    LinOp R f n n := by
  refine ⟨fun x => (List.range n).map (fun k => d k (nth x k)),
    fun x out hx ho => ⟨hex x out hx ho, by simp⟩, fun α β x y hx hy => ?_⟩
  refine ext_nth (by simp) (fun k hk => ?_)
  have hk' : k < n := by simpa using hk
  rw [nth_map_range _ _ _ hk', nth_linComb α β x y (by omega), hd,
    nth_linComb _ _ _ _ (by simpa), nth_map_range _ _ _ hk', nth_map_range _ _ _ hk']

theorem linOp_comp {f1 : List S → List T → Res (List T)} {f2 : List T → List U → Res (List U)}
    {n m l : ℕ} (s0 : List T) (hs : s0.length = m) (h1 : LinOp R f1 n m) (h2 : LinOp R f2 m l) :
    LinOp R (fun x out => do let s ← f1 x s0; f2 s out) n l := by
  obtain ⟨g1, c1, i1⟩ := h1
  obtain ⟨g2, c2, i2⟩ := h2
  refine ⟨g2 ∘ g1, fun x out hx ho => ?_, fun α β x y hx hy => ?_⟩
  · obtain ⟨e1, e2⟩ := c1 x s0 hx hs
    show (f1 x s0 >>= fun s => f2 s out) = _ ∧ _
    rw [e1, bind_ok]
    exact c2 _ _ e2 ho
  · have e1 := (c1 x s0 hx hs).2
    have e2 := (c1 y s0 hy hs).2
    simp only [Function.comp]
    rw [i1 α β x y hx hy, i2 α β _ _ e1 e2]

theorem linOp_id {f : List T → List T → Res (List T)} {n : ℕ}
    (h : ∀ x out, x.length = n → out.length = n → f x out = ok x) : LinOp R f n n :=
  ⟨id, fun x out hx ho => ⟨h x out hx ho, hx⟩, fun _ _ _ _ _ _ => rfl⟩

end General

theorem zipSet_id_ok {T : Type} (x out : List T) (h : x.length = out.length) :
    zipSet id x out = x := by rw [zipSet_eq_map _ _ _ h, List.map_id]

/-! ### Chebyshev -/

section Cheb
variable {R T : Type} [CommRing R] [AddCommGroup T] [Module ℝ T] [Module R T] [SMulCommClass ℝ R T]

theorem cheb_new_ok {n : ℕ} (hn : 2 ≤ n) : Cheb.new n = ok ⟨n, n⟩ := by
  unfold Cheb.new assertR
  rw [if_pos (by omega)]; rfl

/-- relation between coefficients and grid values -/
def ChebVals (n : ℕ) (a v : List ℝ) : Prop :=
  ∀ j < n, nth v j = ∑ i ∈ range n, (Polynomial.Chebyshev.T ℝ (i : ℤ)).eval (chebPt n j) * nth a i

theorem chebVals_of_backward {n : ℕ} (hn : 2 ≤ n) (a out : List ℝ) (ha : a.length = n)
    (ho : out.length = n) {v : List ℝ} (hv : Cheb.backwardSlice ⟨n, n⟩ a out = ok v) :
    v.length = n ∧ ChebVals n a v := by
  obtain ⟨x, w, hx, hw, hl, he⟩ := Props.C02_backward_evaluates n ⟨n, n⟩ (cheb_new_ok hn) a out ha ho
  obtain rfl : w = v := by rw [hw] at hv; simpa using hv
  obtain ⟨x', hx', rfl⟩ := wp_total.mp (wp_chebNodes hn)
  obtain rfl : x = _ := by
    have : ok x = ok ((List.range n).map (chebPt n)) := by rw [← hx, ← hx']; rfl
    simpa using this
  have hl' : w.length = n := by simpa using hl
  refine ⟨hl', fun j hj => ?_⟩
  rw [he j (by simpa using hj), nth_map_range _ _ _ hj]
  unfold chebPoly
  rw [Polynomial.eval_finset_sum, ha]
  refine Finset.sum_congr rfl (fun i _ => ?_)
  rw [Polynomial.eval_C_mul, mul_comm]

theorem chebVals_lin {n : ℕ} (α β : ℝ) {a v a' v' : List ℝ} (ha : a.length = n) (hv : v.length = n)
    (h : ChebVals n a v) (h' : ChebVals n a' v') :
    ChebVals n (linComb ℝ α β a a') (linComb ℝ α β v v') := by
  intro j hj
  rw [nth_linComb _ _ _ _ (by omega), h j hj, h' j hj, Finset.smul_sum, Finset.smul_sum,
    ← Finset.sum_add_distrib]
  refine Finset.sum_congr rfl (fun i hi => ?_)
  rw [nth_linComb _ _ _ _ (by rw [ha]; exact Finset.mem_range.mp hi)]
  simp only [smul_eq_mul]; ring

theorem cheb_backward_lin {n : ℕ} (hn : 2 ≤ n) :
    LinOp ℝ (Cheb.backwardSlice (A := ℝ) ⟨n, n⟩) n n := by
  refine linOp_of_rel (ChebVals n) (fun a out ha ho => ?_) (fun a v v' _ hv hv' h h' => ?_)
    (fun α β a v a' v' ha _ hv _ h h' => chebVals_lin α β ha hv h h')
  · obtain ⟨x, v, -, hv, -⟩ := Props.C02_backward_evaluates n ⟨n, n⟩ (cheb_new_ok hn) a out ha ho
    exact ⟨v, hv, chebVals_of_backward hn a out ha ho hv⟩
  · exact ext_nth (by omega) (fun j hj => by rw [h j (by omega), h' j (by omega)])

theorem cheb_forward_lin {n : ℕ} (hn : 2 ≤ n) :
    LinOp ℝ (Cheb.forwardSlice (A := ℝ) ⟨n, n⟩) n n := by
  refine linOp_of_rel (fun v a => ChebVals n a v) (fun v out hv ho => ?_)
    (fun v a a' hv ha ha' h h' => ?_)
    (fun α β v a v' a' hv _ ha _ h h' => chebVals_lin α β ha hv h h')
  · obtain ⟨a, h1, h2⟩ := Props.C03_backward_forward n ⟨n, n⟩ (cheb_new_ok hn) v out
      (List.replicate n 0) hv ho (by simp [Cheb.lenPhys])
    have ha : a.length = n := by
      obtain ⟨a', ha', hal, -⟩ := wp_total.mp (wp_forwardSlice ⟨n, n⟩ n rfl hn v out hv ho)
      obtain rfl : a = a' := by rw [h1] at ha'; simpa using ha'
      exact hal
    exact ⟨a, h1, ha, (chebVals_of_backward hn a _ ha (by simp) h2).2⟩
  · have key : ∀ c : List ℝ, c.length = n → ChebVals n c v →
        Cheb.forwardSlice ⟨n, n⟩ v (List.replicate n 0) = ok c := fun c hc hcv => by
      obtain ⟨w, h1, h2⟩ := Props.C03_forward_backward n ⟨n, n⟩ (cheb_new_ok hn) c
        (List.replicate n 0) (List.replicate n 0) hc (by simp [Cheb.lenPhys]) (by simp [Cheb.lenSpec])
      obtain ⟨hw, hcw⟩ := chebVals_of_backward hn c _ hc (by simp) h1
      obtain rfl : w = v := ext_nth (by omega) (fun j hj => by
        rw [hcw j (by omega), hcv j (by omega)])
      exact h2
    have := (key a ha h).symm.trans (key a' ha' h')
    simpa using this

theorem cheb_gradient_lin {n : ℕ} (hn : 3 ≤ n) (k : ℕ) :
    LinOp R (fun x out : List T => Cheb.gradientSlice ℝ ⟨n, n⟩ x out k) n n := by
  refine linOp_of_rel (fun a g => ∀ x : ℝ, chebVal ℝ g x = chebDeriv ℝ k a x)
    (fun a out ha ho => ?_) (fun a g g' _ hg hg' h h' => chebVal_inj (K := ℝ) g g' (by omega)
      (fun x => by rw [h x, h' x])) (fun α β a g a' g' ha ha' hg hg' h h' x => ?_)
  · obtain ⟨g, h1, h2, h3, -⟩ := Props.C04_gradient_is_derivative (K := ℝ) n hn ⟨n, n⟩
      (cheb_new_ok (by omega)) a out ha ho k
    exact ⟨g, h1, h2, h3⟩
  · have e1 := congrArg (α • ·) (h x)
    have e2 := congrArg (β • ·) (h' x)
    have e3 := congrArg₂ (· + ·) e1 e2
    unfold chebVal chebDeriv at *
    rw [linComb_length, linComb_length, hg, ha]
    rw [hg, hg', ha, ha', Finset.smul_sum, Finset.smul_sum, Finset.smul_sum, Finset.smul_sum,
      ← Finset.sum_add_distrib, ← Finset.sum_add_distrib] at e3
    refine Eq.trans (Finset.sum_congr rfl (fun i hi => ?_)) (e3.trans (Finset.sum_congr rfl
      (fun i hi => ?_)))
    · rw [nth_linComb _ _ _ _ (by rw [hg]; exact Finset.mem_range.mp hi), smul_add,
        smul_comm _ α, smul_comm _ β]
    · rw [nth_linComb _ _ _ _ (by rw [ha]; exact Finset.mem_range.mp hi), smul_add,
        smul_comm _ α, smul_comm _ β]

end Cheb

/-! ### composite -/

section Compo
variable {R T : Type} [CommRing R] [AddCommGroup T] [Module ℝ T] [Module R T] [SMulCommClass ℝ R T]
variable {k : CKind} {n : ℕ} {b : Compo ℝ}

theorem mulVec_linComb (S : Mat ℝ) (α β : R) (x y : List T) (hx : x.length = S.cols) :
    mulVec S (linComb R α β x y) = linComb R α β (mulVec S x) (mulVec S y) := by
  refine ext_nth (by simp) (fun i hi => ?_)
  have hi' : i < S.rows := by simpa using hi
  rw [nth_mulVec _ _ hi', nth_linComb _ _ _ _ (by simpa), nth_mulVec _ _ hi', nth_mulVec _ _ hi',
    Finset.smul_sum, Finset.smul_sum, ← Finset.sum_add_distrib]
  refine Finset.sum_congr rfl (fun j hj => ?_)
  rw [nth_linComb _ _ _ _ (by rw [hx]; exact Finset.mem_range.mp hj), smul_add,
    smul_comm _ α, smul_comm _ β]

theorem compo_sizes (hb : Compo.new k n = ok b) :
    b.lenPhys = n ∧ b.lenOrth = n ∧ b.lenSpec + k.nbc = n ∧ b.ortho = ⟨n, n⟩ ∧ 4 ≤ n := by
  have hw := Compo.wf_of_new hb
  exact ⟨hw.n_eq, by simp [Compo.lenOrth, Cheb.lenOrth, hw.ortho], hw.m_add, hw.ortho,
    le_trans (by cases k <;> decide) hw.le⟩

theorem compo_stencil (hb : Compo.new k n = ok b) :
    ∃ S, b.stencilMat = ok S ∧ S.rows = b.lenOrth ∧ S.cols = b.lenSpec := by
  obtain ⟨S, P, h, -, h1, -⟩ := Props.C10_stencil_inv_left_inverse k n b hb
  exact ⟨S, h, h1⟩

theorem compo_toOrtho_lin (hk : k = .dirichlet ∨ k = .neumann ∨ k = .dirichletNeumann)
    (hb : Compo.new k n = ok b) :
    LinOp R (fun x out : List T => b.toOrthoSlice x out) b.lenSpec b.lenOrth := by
  obtain ⟨S, hS, hr, hc⟩ := compo_stencil hb
  refine ⟨fun x => mulVec S x, fun x out hx ho => ?_, fun α β x y hx hy => ?_⟩
  · obtain ⟨S', hS', h⟩ := Props.C11_to_ortho_is_stencil k hk n b hb x out hx ho
    obtain rfl : S = S' := by rw [hS] at hS'; simpa using hS'
    exact ⟨h, by simpa using hr⟩
  · exact mulVec_linComb S α β x y (by rw [hx, hc])

theorem compo_fromOrtho_lin (hb : Compo.new k n = ok b) (hn : k.minSolve ≤ n) :
    LinOp R (fun x out : List T => b.fromOrthoSlice x out) b.lenOrth b.lenSpec := by
  obtain ⟨S, hS, hr, hc⟩ := compo_stencil hb
  obtain ⟨-, hlo, -⟩ := compo_sizes hb
  have key : ∀ u out : List T, u.length = b.lenOrth → out.length = b.lenSpec → ∀ x : List T,
      b.fromOrthoSlice u out = ok x ↔ x.length = b.lenSpec ∧ ∀ j < b.lenSpec,
        ∑ i ∈ range n, S.get i j • nth (mulVec S x) i = ∑ i ∈ range n, S.get i j • nth u i :=
    fun u out hu ho => by
      obtain ⟨S', hS', h⟩ := Props.C14_from_ortho_normal_equations k n b hb hn u out hu ho
      obtain rfl : S = S' := by rw [hS] at hS'; simpa using hS'
      exact h
  refine linOp_of_rel (fun u x => ∀ j < b.lenSpec,
      ∑ i ∈ range n, S.get i j • nth (mulVec S x) i = ∑ i ∈ range n, S.get i j • nth u i)
    (fun u out hu ho => ?_) (fun u x x' hu hx hx' h h' => ?_)
    (fun α β u x u' x' hu hu' hx hx' h h' j hj => ?_)
  · obtain ⟨x, h1, h2⟩ := Props.C19_from_ortho_total k n b hb hn u out hu ho
    exact ⟨x, h1, h2, ((key u out hu ho x).mp h1).2⟩
  · have e1 := (key u (List.replicate b.lenSpec 0) hu (by simp) x).mpr ⟨hx, h⟩
    have e2 := (key u (List.replicate b.lenSpec 0) hu (by simp) x').mpr ⟨hx', h'⟩
    rw [e1] at e2; simpa using e2
  · have e3 := congrArg₂ (· + ·) (congrArg (α • ·) (h j hj)) (congrArg (β • ·) (h' j hj))
    rw [Finset.smul_sum, Finset.smul_sum, Finset.smul_sum, Finset.smul_sum,
      ← Finset.sum_add_distrib, ← Finset.sum_add_distrib] at e3
    rw [mulVec_linComb S α β x x' (by rw [hx, hc])]
    refine Eq.trans (Finset.sum_congr rfl (fun i hi => ?_)) (e3.trans (Finset.sum_congr rfl
      (fun i hi => ?_)))
    · rw [nth_linComb _ _ _ _ (by rw [mulVec_length, hr, hlo]; exact Finset.mem_range.mp hi),
        smul_add, smul_comm _ α, smul_comm _ β]
    · rw [nth_linComb _ _ _ _ (by rw [hu, hlo]; exact Finset.mem_range.mp hi), smul_add,
        smul_comm _ α, smul_comm _ β]

theorem compo_gradient_lin (hk : k = .dirichlet ∨ k = .neumann ∨ k = .dirichletNeumann)
    (hb : Compo.new k n = ok b) (d : ℕ) :
    LinOp R (fun x out : List T => b.gradientSlice x out d) b.lenSpec b.lenOrth := by
  obtain ⟨-, hlo, -, hor, h4⟩ := compo_sizes hb
  have h1 := compo_toOrtho_lin (R := R) (T := T) hk hb
  have h2 := cheb_gradient_lin (R := R) (T := T) (n := n) (by omega) d
  rw [← hor] at h2
  rw [hlo] at h1 ⊢
  have := linOp_comp (List.replicate b.lenOrth (0 : T)) (by simp [hlo]) h1 h2
  exact this

theorem compo_forward_lin (hb : Compo.new k n = ok b) (hn : k.minSolve ≤ n) :
    LinOp ℝ (fun x out : List ℝ => b.forwardSlice x out) b.lenPhys b.lenSpec := by
  obtain ⟨hlp, hlo, -, hor, h4⟩ := compo_sizes hb
  have h1 := cheb_forward_lin (n := n) (by omega)
  have h2 := compo_fromOrtho_lin (R := ℝ) (T := ℝ) hb hn
  rw [← hor] at h1
  rw [hlo] at h2
  rw [hlp]
  exact linOp_comp (List.replicate b.lenOrth (0 : ℝ)) (by simp [hlo]) h1 h2

theorem compo_backward_lin (hk : k = .dirichlet ∨ k = .neumann ∨ k = .dirichletNeumann)
    (hb : Compo.new k n = ok b) :
    LinOp ℝ (fun x out : List ℝ => b.backwardSlice x out) b.lenSpec b.lenPhys := by
  obtain ⟨hlp, hlo, -, hor, h4⟩ := compo_sizes hb
  have h1 := compo_toOrtho_lin (R := ℝ) (T := ℝ) hk hb
  have h2 := cheb_backward_lin (n := n) (by omega)
  rw [← hor] at h2
  rw [hlo] at h1
  rw [hlp]
  exact linOp_comp (List.replicate b.lenOrth (0 : ℝ)) (by simp [hlo]) h1 h2

end Compo

/-! ### Fourier -/

section Fourier

theorem c2c_forward_lin (n : ℕ) : LinOp ℂ (C2c.forwardSlice (C := ℂ) ⟨n, n⟩) n n :=
  linOp_of_formula (fun k j z => z * twiddle (-1) n j k)
    (fun k j α β a b => by simp only [smul_eq_mul]; ring) (fun x out hx ho => by
      rw [wp_c2c_forward n x out hx ho]; unfold fftFwd
      rw [hx]
      congr 1)

theorem c2c_backward_lin (n : ℕ) (hn : 1 ≤ n) : LinOp ℂ (C2c.backwardSlice (C := ℂ) ⟨n, n⟩) n n :=
  linOp_of_formula (fun k j z => (n : ℂ)⁻¹ * z * twiddle 1 n j k)
    (fun k j α β a b => by simp only [smul_eq_mul]; ring) (fun x out hx ho => by
      rw [wp_c2c_backward n hn x out hx ho]; unfold fftInv
      rw [List.length_map, hx]
      congr 1
      refine List.map_congr_left (fun k _ => ?_)
      rw [list_sum_range]
      refine Finset.sum_congr rfl (fun j hj => ?_)
      rw [nth_map _ _ _ (by rw [hx]; exact Finset.mem_range.mp hj)])

theorem c2c_gradient_lin (n : ℕ) (hn : 1 ≤ n) (d : ℕ) :
    LinOp ℂ (fun x out : List ℂ => C2c.gradientSlice ⟨n, n⟩ x out d) n n :=
  linOp_of_diag (fun k z => z * (Complex.I * (c2cCodeK n k : ℂ)) ^ d)
    (fun k α β a b => by simp only [smul_eq_mul]; ring)
    (fun x out hx ho => c2c_gradient_eq n hn x out d hx ho)

theorem r2c_forward_lin (n : ℕ) : LinOp ℝ (R2c.forwardSlice (A := ℝ) (C := ℂ) ⟨n, n / 2 + 1⟩) n (n / 2 + 1) :=
  linOp_of_formula (fun k j z => (z : ℂ) * twiddle (-1) n j k)
    (fun k j α β a b => by
      simp only [smul_eq_mul, Complex.ofReal_add, Complex.ofReal_mul, Complex.real_smul]; ring)
    (fun x out hx ho => by
      rw [r2c_forward_eq n x out hx ho]; unfold rfftFwd
      rw [hx]
      congr 1)

theorem r2c_gradient_lin (b : R2c) (d : ℕ) :
    LinOp ℂ (fun x out : List ℂ => R2c.gradientSlice b x out d) b.m b.m :=
  linOp_of_diag (fun k z => z * (Complex.I * (k : ℂ)) ^ d)
    (fun k α β a b => by simp only [smul_eq_mul]; ring)
    (fun x out hx ho => r2c_gradient_eq b x out d hx ho)

theorem r2c_backward_lin (n : ℕ) (hn : 1 ≤ n) :
    LinOp ℝ (R2c.backwardSlice (A := ℝ) (C := ℂ) ⟨n, n / 2 + 1⟩) (n / 2 + 1) n :=
  linOp_of_formula (fun k j z => (1 / n : ℝ) * ((if j = 0 ∨ 2 * j = n then 1 else 2) *
      (z * Complex.exp (Complex.I * j * (2 * Real.pi * k / n : ℝ))).re))
    (fun k j α β a b => by
      rw [add_mul, Complex.add_re]
      simp only [Complex.real_smul, smul_eq_mul, mul_assoc, Complex.re_ofReal_mul]; ring)
    (fun c out hc ho => by
      obtain ⟨x, v, hx, hv, hl, he⟩ := Props.C28_backward_evaluates n hn ⟨n, n / 2 + 1⟩ rfl c out hc ho
      obtain ⟨x', hx', hl', he'⟩ := Props.C23_r2c_coords n hn ⟨n, n / 2 + 1⟩ rfl
      obtain rfl : x = x' := by rw [hx] at hx'; simpa using hx'
      rw [hv]
      congr 1
      refine ext_nth (by simp [hl, hl']) (fun j hj => ?_)
      have hj' : j < n := by omega
      rw [he j (by omega), nth_map_range _ _ _ hj', he' j hj']
      unfold trigR
      rw [Finset.mul_sum])

end Fourier
end Verif
