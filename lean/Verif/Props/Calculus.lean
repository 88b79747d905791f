/-
Properties C59 and C60: the uses of the library shown in its documentation, as statements about
every input.
-/
import Verif.Props.SpaceInst
import Mathlib.LinearAlgebra.Lagrange

namespace Verif.Props
open Res Spec Finset

/-! ### C59: differentiation of sampled functions -/

/-- The polynomial of a coefficient vector has degree less than its length. -/
theorem chebPoly_degree (a : List ℝ) : (chebPoly ℝ a).degree < a.length := by
  unfold chebPoly
  refine lt_of_le_of_lt (Polynomial.degree_sum_le _ _) ?_
  rw [Finset.sup_lt_iff (by exact WithBot.bot_lt_coe _)]
  intro i hi
  refine lt_of_le_of_lt (Polynomial.degree_mul_le _ _) ?_
  refine lt_of_le_of_lt (add_le_add_left Polynomial.degree_C_le _) ?_
  rw [zero_add, Polynomial.Chebyshev.degree_T]
  have := Finset.mem_range.mp hi
  simpa using this

/-- The forward transform of samples of a polynomial of degree `< n` returns its Chebyshev
coefficients. -/
theorem cheb_forward_samples {n : ℕ} {b : Cheb} (hb : Cheb.new n = ok b) (p : Polynomial ℝ)
    (hp : p.degree < n) (out : List ℝ) (ho : out.length = b.lenSpec) :
    ∃ x a, b.coords = ok x ∧ b.forwardSlice (x.map p.eval) out = ok a ∧ a.length = b.lenSpec ∧
      chebPoly ℝ a = p := by
  obtain ⟨x, hx, hxl, -, -, -, hmono, -⟩ := C01_coords n b hb
  have hb' := hb
  obtain ⟨rfl, hn⟩ := cheb_of_new hb
  obtain ⟨a, ha, hal, -⟩ := wp_total.mp (wp_forwardSlice ⟨n, n⟩ n rfl hn (x.map p.eval) out
    (by simpa [Cheb.lenPhys] using hxl) ho)
  obtain ⟨a', ha', hba⟩ := C03_backward_forward n ⟨n, n⟩ hb' (x.map p.eval) out out
    (by simpa [Cheb.lenPhys] using hxl) ho ho
  obtain rfl : a = a' := by rw [ha] at ha'; exact Res.ok.inj ha'
  obtain ⟨x', v, hx', hv, -, he⟩ := C02_backward_evaluates n ⟨n, n⟩ hb' a out hal ho
  obtain rfl : x = x' := by rw [hx] at hx'; exact Res.ok.inj hx'
  obtain rfl : v = x.map p.eval := by rw [hv] at hba; exact Res.ok.inj hba
  refine ⟨x, a, hx, ha, hal, ?_⟩
  have hinj : Set.InjOn (nth x) (Finset.range n : Set ℕ) := by
    intro i hi j hj hij
    have hi' : i < n := by simpa using hi
    have hj' : j < n := by simpa using hj
    rcases lt_trichotomy i j with h | h | h
    · exact absurd hij (hmono i j h hj').ne
    · exact h
    · exact absurd hij.symm (hmono j i h hi').ne
  refine Polynomial.eq_of_degrees_lt_of_eval_index_eq (Finset.range n) hinj ?_ ?_ (fun j hj => ?_)
  · rw [Finset.card_range]
    have := chebPoly_degree a
    rwa [hal] at this
  · rwa [Finset.card_range]
  · have hj' : j < n := by simpa using hj
    rw [← he j (by omega), nth_map _ _ _ (by omega)]

/-- C59: sample a polynomial of degree less than `n` on the grid of `chebyshev(n)`; `forward`,
`gradient` of order `k` and `backward` return the samples of its `k`-th derivative. -/
theorem C59_chebyshev (n : ℕ) (hn : 3 ≤ n) (b : Cheb) (hb : Cheb.new n = ok b) (p : Polynomial ℝ)
    (hp : p.degree < n) (k : ℕ) (out out' out'' : List ℝ) (ho : out.length = b.lenSpec)
    (ho' : out'.length = b.lenOrth) (ho'' : out''.length = b.lenPhys) :
    ∃ x a g, b.coords = ok x ∧ b.forwardSlice (x.map p.eval) out = ok a ∧
      b.gradientSlice ℝ a out' k = ok g ∧
      b.backwardSlice g out'' = ok (x.map (Polynomial.derivative^[k] p).eval) := by
  obtain ⟨x, a, hx, ha, hal, rfl⟩ := cheb_forward_samples hb p hp out ho
  obtain ⟨g, hg, hgl, hgp⟩ := C04_gradient_polynomial (K := ℝ) n hn b hb a out' hal ho' k
  obtain ⟨x', v, hx', hv, hvl, he⟩ := C02_backward_evaluates n b hb g out'' hgl ho''
  obtain rfl : x = x' := by rw [hx] at hx'; exact Res.ok.inj hx'
  refine ⟨x, a, g, hx, ha, hg, ?_⟩
  rw [hv]
  congr 1
  refine ext_nth (by simpa using hvl) (fun j hj => ?_)
  rw [he j (by omega), nth_map _ _ _ (by omega), hgp]

/-- a polynomial of degree 2 on 5 points -/
example : ((Polynomial.X ^ 2 : Polynomial ℝ)).degree < (5 : ℕ) := by
  rw [Polynomial.degree_X_pow]; exact WithBot.coe_lt_coe.mpr (by norm_num)

/-- A real trigonometric polynomial. -/
noncomputable def trigPoly (M : ℕ) (A B : ℕ → ℝ) (x : ℝ) : ℝ :=
  ∑ m ∈ range (M + 1), (A m * Real.cos (m * x) + B m * Real.sin (m * x))

theorem trigR_trigPoly (n M : ℕ) (hM : 2 * M < n) (A B : ℕ → ℝ) (c : List ℂ)
    (h0 : nth c 0 = ((n * A 0 : ℝ) : ℂ))
    (h1 : ∀ m, 1 ≤ m → m ≤ M → nth c m = ⟨n / 2 * A m, -(n / 2 * B m)⟩)
    (h2 : ∀ m, M < m → m ≤ n / 2 → nth c m = 0) (x : ℝ) :
    trigR n c x = trigPoly M A B x := by
  have hn : (n : ℝ) ≠ 0 := by exact_mod_cast (by omega : n ≠ 0)
  unfold trigR trigPoly
  rw [Finset.mul_sum]
  rw [← Finset.sum_subset (s₁ := range (M + 1)) (by
    intro i hi; simp only [mem_range] at *; omega)]
  · refine Finset.sum_congr rfl (fun m hm => ?_)
    have hm' : m < M + 1 := by simpa using hm
    have he : (Complex.exp (Complex.I * m * x)) = ⟨Real.cos (m * x), Real.sin (m * x)⟩ := by
      rw [show Complex.I * m * x = ((m * x : ℝ) : ℂ) * Complex.I by push_cast; ring]
      exact Complex.ext (Complex.exp_ofReal_mul_I_re _) (Complex.exp_ofReal_mul_I_im _)
    rw [he, Complex.mul_re]
    by_cases hm0 : m = 0
    · subst hm0
      rw [h0, if_pos (Or.inl rfl), Complex.ofReal_re, Complex.ofReal_im]
      simp only [Nat.cast_zero, zero_mul, Real.cos_zero, Real.sin_zero]
      field_simp
      ring
    · rw [h1 m (by omega) (by omega), if_neg (by omega)]
      field_simp
      ring
  · intro m hm hm2
    simp only [mem_range] at hm hm2
    rw [h2 m (by omega) (by omega)]
    simp

/-- C59: sample a real trigonometric polynomial with frequencies below `n/2` on the grid of
`fourier_r2c(n)`; `forward`, `gradient` of order `k` and `backward` return the samples of its
`k`-th derivative. -/
theorem C59_fourier_r2c (n M : ℕ) (hM : 2 * M < n) (b : R2c) (hb : R2c.new n = ok b) (A B : ℕ → ℝ)
    (k : ℕ) (hk : k < 2 ^ 31) (out out' : List ℂ) (out'' : List ℝ) (ho : out.length = b.lenSpec)
    (ho' : out'.length = b.lenOrth) (ho'' : out''.length = b.lenPhys) :
    ∃ x c g, b.coords = ok x ∧ b.forwardSlice (x.map (trigPoly M A B)) out = ok c ∧
      b.gradientSlice c out' k = ok g ∧
      b.backwardSlice g out'' = ok (x.map (iteratedDeriv k (trigPoly M A B))) := by
  set c : List ℂ := (List.range (n / 2 + 1)).map (fun m : ℕ =>
      if M < m then (0 : ℂ) else if m = 0 then ((n * A 0 : ℝ) : ℂ) else
        ⟨n / 2 * A m, -(n / 2 * B m)⟩) with hc
  have hcm : ∀ m ≤ n / 2, nth c m = if M < m then (0 : ℂ) else if m = 0 then ((n * A 0 : ℝ) : ℂ) else
        ⟨n / 2 * A m, -(n / 2 * B m)⟩ := fun m hm => nth_map_range _ _ _ (by omega)
  have hc0 : nth c 0 = ((n * A 0 : ℝ) : ℂ) := by rw [hcm 0 (by omega), if_neg (by omega), if_pos rfl]
  have hb' := hb
  obtain rfl := r2c_of_new hb
  have hcl : c.length = n / 2 + 1 := by simp [hc]
  have hf : trigR n c = trigPoly M A B := funext (trigR_trigPoly n M hM A B c hc0
    (fun m h1 h2 => by rw [hcm m (by omega), if_neg (by omega), if_neg (by omega)])
    (fun m h1 h2 => by rw [hcm m h2, if_pos h1]))
  obtain ⟨v, hv, hvl, hvf⟩ := C28_forward_backward n (by omega) _ hb' c out out'' hcl ho'' ho
    (by rw [hc0, Complex.ofReal_im])
    (by intro h; rw [hcm _ le_rfl, if_pos (by omega)]; rfl)
  obtain ⟨x, v', hx, hv', hl', he'⟩ := C28_backward_evaluates n (by omega) _ hb' c out'' hcl ho''
  obtain rfl : v = v' := by rw [hv] at hv'; exact Res.ok.inj hv'
  have hvx : v = x.map (trigPoly M A B) := ext_nth (by simpa using hl') (fun j hj => by
    rw [he' j (by omega), nth_map _ _ _ (by omega), hf])
  obtain ⟨g, x', w, hg, hx', hw, hwl, hwe⟩ := C29_gradient_sampled n (by omega) _ hb' c out' out'' hcl
    ho' ho'' k hk
  obtain rfl : x = x' := by rw [hx] at hx'; exact Res.ok.inj hx'
  refine ⟨x, c, g, hx, hvx ▸ hvf, hg, ?_⟩
  rw [hw]
  congr 1
  exact ext_nth (by simpa using hwl) (fun j hj => by
    rw [hwe j (by omega), nth_map _ _ _ (by omega), hf])

/-- `sin(2x)` on 8 points (the documented example). -/
example : trigPoly 2 (fun _ => 0) (fun m => if m = 2 then 1 else 0) = fun x => Real.sin (2 * x) := by
  funext x
  simp [trigPoly, Finset.sum_range_succ]

/-! ### C60: composite and orthogonal transforms of the same data -/

private theorem n_ge {k : CKind} {n : ℕ} {b : Compo ℝ} (hb : Compo.new k n = ok b) : 4 ≤ n :=
  le_trans (by cases k <;> decide) (Compo.wf_of_new hb).le

/-- C60: the composite transform of grid data, expanded to the orthogonal base, equals the
orthogonal Chebyshev transform of the data exactly when the interpolating polynomial of the data
satisfies the boundary conditions of the base; otherwise the boundary conditions are enforced.
(All five composite bases; the expansion is the multiplication by `stencil()`.) -/
theorem C60_composite_transform (k : CKind) (n : ℕ) (ch : Cheb) (b : Compo ℝ)
    (hch : Cheb.new n = ok ch) (hb : Compo.new k n = ok b) (hn : k.minSolve ≤ n)
    (v out out' : List ℝ) (hv : v.length = b.lenPhys) (ho : out.length = ch.lenSpec)
    (ho' : out'.length = b.lenSpec) :
    ∃ S a c, b.stencilMat = ok S ∧ ch.forwardSlice v out = ok a ∧ b.forwardSlice v out' = ok c ∧
      SatisfiesBC ℝ k (mulVec S c) ∧ (mulVec S c = a ↔ SatisfiesBC ℝ k a) := by
  have hw := Compo.wf_of_new hb
  have hn4 := n_ge hb
  have hp : b.lenPhys = n := hw.n_eq
  have ho2 : b.lenOrth = n := by simp [Compo.lenOrth, Cheb.lenOrth, hw.ortho]
  obtain ⟨rfl, -⟩ := cheb_of_new hch
  obtain ⟨a, ha, hal, hay⟩ := wp_total.mp (wp_forwardSlice ⟨n, n⟩ n rfl (by omega) v out
    (by rw [hv, hp]) ho)
  obtain ⟨a', ha', hal', hay'⟩ := wp_total.mp (wp_forwardSlice ⟨n, n⟩ n rfl (by omega) v
    (List.replicate b.lenOrth 0) (by rw [hv, hp]) (by simp [ho2]))
  obtain rfl : a = a' := by
    obtain ⟨a2, h2, h3⟩ := C03_backward_forward n ⟨n, n⟩ hch v out out (by rw [hv, hp]; rfl) ho ho
    obtain ⟨a3, h4, h5⟩ := C03_backward_forward n ⟨n, n⟩ hch v (List.replicate b.lenOrth 0) out
      (by rw [hv, hp]; rfl) (by simp [ho2, Cheb.lenSpec]) ho
    obtain rfl : a = a2 := by rw [ha] at h2; exact Res.ok.inj h2
    obtain rfl : a' = a3 := by rw [ha'] at h4; exact Res.ok.inj h4
    obtain ⟨w, h6, h7⟩ := C03_forward_backward n ⟨n, n⟩ hch a out out hal ho ho
    obtain ⟨w', h8, h9⟩ := C03_forward_backward n ⟨n, n⟩ hch a' out out hal' ho ho
    rw [h3] at h6; rw [h5] at h8
    obtain rfl := Res.ok.inj h6
    obtain rfl := Res.ok.inj h8
    rw [h7] at h9; exact Res.ok.inj h9
  obtain ⟨S, c, hS, hc, -, hrange⟩ := C15_projection k n b hb hn a out' (by rw [hal, ho2]) ho'
  obtain ⟨S', hS', hbc1, hbc2⟩ := C17_boundary_conditions (K := ℝ) (T := ℝ) k n b hb
  obtain rfl : S = S' := by rw [hS] at hS'; exact Res.ok.inj hS'
  refine ⟨S, a, c, hS, ha, ?_, hbc1 c, fun h => h ▸ hbc1 c, fun h => hrange.mpr (hbc2 a ?_ h)⟩
  · unfold Compo.forwardSlice
    dsimp only
    rw [hw.ortho, ha', bind_ok, hc]
  · rw [hal, ho2]

/-- C60 in terms of the API calls, as in the documentation: `cd.to_ortho(cd.forward(v))` and
`ch.forward(v)` agree exactly when the data satisfies the boundary conditions. -/
theorem C60_to_ortho_forward (k : CKind)
    (hk : k = .dirichlet ∨ k = .neumann ∨ k = .dirichletNeumann) (n : ℕ) (ch : Cheb) (b : Compo ℝ)
    (hch : Cheb.new n = ok ch) (hb : Compo.new k n = ok b) (hn : k.minSolve ≤ n)
    (v out out' out'' : List ℝ) (hv : v.length = b.lenPhys) (ho : out.length = ch.lenSpec)
    (ho' : out'.length = b.lenSpec) (ho'' : out''.length = b.lenOrth) :
    ∃ a c p, ch.forwardSlice v out = ok a ∧ b.forwardSlice v out' = ok c ∧
      b.toOrthoSlice c out'' = ok p ∧ SatisfiesBC ℝ k p ∧ (p = a ↔ SatisfiesBC ℝ k a) := by
  obtain ⟨S, a, c, hS, ha, hc, h1, h2⟩ :=
    C60_composite_transform k n ch b hch hb hn v out out' hv ho ho'
  have hcl : c.length = b.lenSpec := by
    have hw := Compo.wf_of_new hb
    have hn4 := n_ge hb
    have hp : b.lenPhys = n := hw.n_eq
    have ho2 : b.lenOrth = n := by simp [Compo.lenOrth, Cheb.lenOrth, hw.ortho]
    obtain ⟨u, hu, hul, -⟩ := wp_total.mp (wp_forwardSlice ⟨n, n⟩ n rfl (by omega) v
      (List.replicate b.lenOrth 0) (by rw [hv, hp]) (by simp [ho2]))
    obtain ⟨c', hc', hl⟩ := C19_from_ortho_total k n b hb hn u out' (by rw [hul, ho2]) ho'
    have : b.forwardSlice v out' = ok c' := by
      unfold Compo.forwardSlice
      dsimp only
      rw [hw.ortho, hu, bind_ok, hc']
    obtain rfl : c = c' := by rw [hc] at this; exact Res.ok.inj this
    exact hl
  obtain ⟨S', hS', h3⟩ := C11_to_ortho_is_stencil k hk n b hb c out'' hcl ho''
  obtain rfl : S = S' := by rw [hS] at hS'; exact Res.ok.inj hS'
  exact ⟨a, c, _, ha, hc, h3, h1, h2⟩

/-- C60 for `cheb_dirichlet`, whose boundary conditions can be read off the data: the two
transforms agree exactly when the first and the last grid value vanish. -/
theorem C60_dirichlet (n : ℕ) (ch : Cheb) (b : Compo ℝ)
    (hch : Cheb.new n = ok ch) (hb : Compo.new .dirichlet n = ok b) (hn : 5 ≤ n)
    (v out out' out'' : List ℝ) (hv : v.length = b.lenPhys) (ho : out.length = ch.lenSpec)
    (ho' : out'.length = b.lenSpec) (ho'' : out''.length = b.lenOrth) :
    ∃ a c p, ch.forwardSlice v out = ok a ∧ b.forwardSlice v out' = ok c ∧
      b.toOrthoSlice c out'' = ok p ∧ (p = a ↔ nth v 0 = 0 ∧ nth v (n - 1) = 0) := by
  obtain ⟨a, c, p, ha, hc, hp, -, h⟩ := C60_to_ortho_forward .dirichlet (Or.inl rfl) n ch b hch hb hn
    v out out' out'' hv ho ho' ho''
  refine ⟨a, c, p, ha, hc, hp, h.trans ?_⟩
  have hvn : v.length = n := hv.trans (Compo.wf_of_new hb).n_eq
  obtain ⟨x, hx, hxl, -, hx0, hx1, -⟩ := C01_coords n ch hch
  obtain ⟨a', ha', hback⟩ := C03_backward_forward n ch hch v out v
    (by rw [hvn]; obtain ⟨rfl, -⟩ := cheb_of_new hch; rfl) ho
    (by rw [hvn]; obtain ⟨rfl, -⟩ := cheb_of_new hch; rfl)
  obtain rfl : a = a' := by rw [ha] at ha'; exact Res.ok.inj ha'
  have hal : a.length = ch.lenSpec := by
    obtain ⟨rfl, -⟩ := cheb_of_new hch
    obtain ⟨a2, h2, h3, -⟩ := wp_total.mp (wp_forwardSlice ⟨n, n⟩ n rfl (by omega) v out hvn ho)
    obtain rfl : a = a2 := by rw [ha] at h2; exact Res.ok.inj h2
    exact h3
  obtain ⟨x', w, hx', hw, -, he⟩ := C02_backward_evaluates n ch hch a v hal
    (by rw [hvn]; obtain ⟨rfl, -⟩ := cheb_of_new hch; rfl)
  obtain rfl : x = x' := by rw [hx] at hx'; exact Res.ok.inj hx'
  obtain rfl : w = v := by rw [hw] at hback; exact Res.ok.inj hback
  rw [he 0 (by omega), he (n - 1) (by omega), hx0, hx1]
  show (chebDeriv ℝ 0 a 1 = 0 ∧ chebDeriv ℝ 0 a (-1) = 0) ↔ _
  rw [chebDeriv_eq_eval, chebDeriv_eq_eval, Function.iterate_zero, id]
  exact And.comm

/-- both bases of the documented example can be constructed -/
example : (∃ ch, Cheb.new 8 = ok ch) ∧ ∃ b : Compo ℝ, Compo.new .dirichlet 8 = ok b :=
  ⟨⟨_, rfl⟩, by
    obtain ⟨b, hb⟩ := newR2r_exists (some .dirichlet) 8 (by norm_num) (by rintro c ⟨⟩; decide)
    obtain ⟨c, hc, -⟩ := composite_inv hb
    exact ⟨c, hc⟩⟩

end Verif.Props
