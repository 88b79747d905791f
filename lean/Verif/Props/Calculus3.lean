/-
Property C59 in three dimensions: differentiation of sampled functions.
-/
import Verif.Props.Calculus2
import Verif.Props.Tensor
import Verif.Props.Parts

namespace Verif.Props
open Res Spec Finset

theorem returns_of_computes {S T : Type} {f : List S → List T → Res (List T)} {n m : ℕ} {g : List S → List T}
    (h : Computes f n m g) {x : List S} (hx : x.length = n) {out y : List T} (ho : out.length = m)
    (hy : f x out = ok y) : Returns f m x y ∧ y.length = m := by
  have h1 := h x out hx ho
  rw [hy] at h1
  obtain rfl := Res.ok.inj h1.1
  exact ⟨fun out' ho' => (h x out' hx ho').1, h1.2⟩

/-- C59 in one dimension, for every output buffer. -/
theorem C59_returns (k : Option CKind) (n : ℕ) (b o : BaseR2r) (hb : newR2r k n = ok b)
    (hm : RunsMul k) (hs : RunsSolve k n) (hg : RunsGrad k n) (ho : chebyshev n = ok o) :
    ∃ x, (b.toBase ℝ).coords = ok x ∧ (o.toBase ℝ).coords = ok x ∧ x.length = n ∧
      ∀ (d : ℕ) (p : Polynomial ℝ), p.degree < n ∧ PolyBC k p →
        ∃ v g, v.length = (b.toBase ℝ).lenSpec ∧ g.length = n ∧
          Returns (b.toBase ℝ).forwardSlice (b.toBase ℝ).lenSpec (x.map p.eval) v ∧
          Returns (fun v out => (b.toBase ℝ).gradientSlice v out d) (b.toBase ℝ).lenOrth v g ∧
          Returns (o.toBase ℝ).backwardSlice n g (x.map (Polynomial.derivative^[d] p).eval) := by
  obtain ⟨e, lp, lo, ls, lt⟩ := r2r_coords (T := ℝ) hb (o := o) ho
  obtain ⟨S, hS, -⟩ := r2r_stencil (T := ℝ) hb
  obtain ⟨x, β', hx, hxl, -, -⟩ := r2r_evaluates (T := ℝ) hb hm hS
  refine ⟨x, hx, e ▸ hx, hxl.trans lp, fun d p hp => ?_⟩
  obtain ⟨x', v, g, hx', -, h1, h2, h3⟩ := C59_composite k n b o hb hm hs hg ho p hp.1 hp.2 d
    (List.replicate (b.toBase ℝ).lenSpec 0) (List.replicate (b.toBase ℝ).lenOrth 0)
    (List.replicate (o.toBase ℝ).lenPhys 0) (by simp) (by simp) (by simp)
  obtain rfl : x = x' := by rw [hx] at hx'; exact Res.ok.inj hx'
  obtain ⟨φ, cφ, -⟩ := r2r_forward_lin (T := ℝ) hb hs
  obtain ⟨γ, cγ, -⟩ := r2r_gradient_lin (R := ℝ) (T := ℝ) hb hg d
  obtain ⟨β, cβ, -⟩ := r2r_backward_lin (T := ℝ) (show newR2r none n = ok o from ho) trivial
  obtain ⟨r1, l1⟩ := returns_of_computes cφ (by rw [List.length_map, hxl]) (by simp) h1
  obtain ⟨r2, l2⟩ := returns_of_computes cγ l1 (by simp) h2
  obtain ⟨r3, -⟩ := returns_of_computes cβ (by rw [l2, lt, ls]) (by simp) h3
  exact ⟨v, g, l1, l2.trans lt, r1, r2, lo ▸ r3⟩

/-- C59 for BaseR2r×BaseR2r×BaseR2r with equal second and third bases (the case in which `gradient` of `Space3` is
right, see C40): let `f(x,y,z) = ∑ᵣ Pᵣ(x) Qᵣ(y) Wᵣ(z)` be a polynomial of degree below the number of points in each
variable that satisfies the boundary conditions of the bases. Sample it on the grid; `forward`, `gradient` with orders
`d0, d1, d2` and optional scales, and `backward` of the corresponding Chebyshev space return the samples of
`∂ₓ^d0 ∂ᵧ^d1 ∂_z^d2 f`, divided by the scales. -/
theorem C59_space3_r2r (k0 k1 : Option CKind) (n0 n1 : ℕ) (b0 b1 o0 o1 : BaseR2r)
    (hb0 : newR2r k0 n0 = ok b0) (hm0 : RunsMul k0) (hs0 : RunsSolve k0 n0) (hg0 : RunsGrad k0 n0)
    (hb1 : newR2r k1 n1 = ok b1) (hm1 : RunsMul k1) (hs1 : RunsSolve k1 n1) (hg1 : RunsGrad k1 n1)
    (ho0 : chebyshev n0 = ok o0) (ho1 : chebyshev n1 = ok o1)
    (N : ℕ) (P Q W : ℕ → Polynomial ℝ)
    (hP : ∀ r < N, (P r).degree < n0 ∧ PolyBC k0 (P r))
    (hQ : ∀ r < N, (Q r).degree < n1 ∧ PolyBC k1 (Q r))
    (hW : ∀ r < N, (W r).degree < n1 ∧ PolyBC k1 (W r))
    (d0 d1 d2 : ℕ) (scale : Option (ℝ × ℝ × ℝ)) (hsc : scale ≠ none → d0 < 2 ^ 31 ∧ d1 < 2 ^ 31 ∧ d2 < 2 ^ 31)
    (hne : scale3 d0 d1 d2 scale ≠ 0) :
    let sp : Space3 ℝ ℝ ℝ ℝ ℝ := ⟨b0.toBase ℝ, b1.toBase ℝ, b1.toBase ℝ⟩
    let so : Space3 ℝ ℝ ℝ ℝ ℝ := ⟨o0.toBase ℝ, o1.toBase ℝ, o1.toBase ℝ⟩
    ∃ x y, sp.coords = ok [x, y, y] ∧ so.coords = ok [x, y, y] ∧ ∀ A : Arr ℝ,
      SumOf3 A n0 n1 n1 N (fun r p q s => (P r).eval (nth x p) * (Q r).eval (nth y q) * (W r).eval (nth y s)) →
      ∃ v g w, sp.forward A = ok v ∧ sp.gradient v d0 d1 d2 scale = ok g ∧ so.backward g = ok w ∧
        SumOf3 w n0 n1 n1 N fun r p q s => (scale3 d0 d1 d2 scale)⁻¹ *
          ((Polynomial.derivative^[d0] (P r)).eval (nth x p) * (Polynomial.derivative^[d1] (Q r)).eval (nth y q)
            * (Polynomial.derivative^[d2] (W r)).eval (nth y s)) := by
  intro sp so
  obtain ⟨-, lp0, lo0, ls0, lt0⟩ := r2r_coords (T := ℝ) hb0 (o := o0) ho0
  obtain ⟨-, lp1, lo1, ls1, lt1⟩ := r2r_coords (T := ℝ) hb1 (o := o1) ho1
  obtain ⟨x, hx, hx', xl, fx⟩ := C59_returns k0 n0 b0 o0 hb0 hm0 hs0 hg0 ho0
  obtain ⟨y, hy, hy', yl, fy⟩ := C59_returns k1 n1 b1 o1 hb1 hm1 hs1 hg1 ho1
  choose! X GX lX lGX fX gX bX using fun r (hr : r < N) => fx d0 (P r) (hP r hr)
  choose! Y GY lY lGY fY gY bY using fun r (hr : r < N) => fy d1 (Q r) (hQ r hr)
  choose! Z GZ lZ lGZ fZ gZ bZ using fun r (hr : r < N) => fy d2 (W r) (hW r hr)
  have f0 : IsFullR2r (b0.toBase ℝ) := ⟨k0, n0, b0, hb0, hm0, hs0, hg0, rfl⟩
  have f1 : IsFullR2r (b1.toBase ℝ) := ⟨k1, n1, b1, hb1, hm1, hs1, hg1, rfl⟩
  have i0 : IsR2r (o0.toBase ℝ) := ⟨none, n0, o0, ho0, trivial, trivial, rfl⟩
  have i1 : IsR2r (o1.toBase ℝ) := ⟨none, n1, o1, ho1, trivial, trivial, rfl⟩
  obtain ⟨hfw, -, -, hgr⟩ := (C110_spaces3 0 0 0).1 sp f0 f1 f1
  have hbw := C110_space3_backward (R := ℝ) so i0.bwdLin i1.bwdLin i1.bwdLin
  have hco : ∀ (sp : Space3 ℝ ℝ ℝ ℝ ℝ), sp.base0.coords = ok x → sp.base1.coords = ok y → sp.base2.coords = ok y →
      sp.coords = ok [x, y, y] := fun sp h0 h1 h2 => by
    show (do let c0 ← sp.base0.coords
             let c1 ← sp.base1.coords
             let c2 ← sp.base2.coords
             pure [c0, c1, c2]) = _
    rw [h0, h1, h2]; rfl
  refine ⟨x, y, hco sp hx hy hy, hco so hx' hy' hy', fun A hA => ?_⟩
  obtain ⟨v, hv, sv⟩ := hfw N (fun r => x.map (P r).eval) (fun r => y.map (Q r).eval) (fun r => y.map (W r).eval) X Y Z
    (fun r hr => ⟨by rw [List.length_map, xl]; exact lp0.symm, by rw [List.length_map, yl]; exact lp1.symm,
      by rw [List.length_map, yl]; exact lp1.symm,
      by simpa [Function.comp_def] using fX r hr, by simpa [Function.comp_def] using fY r hr, fZ r hr⟩) A (by
        show SumOf3 A (b0.toBase ℝ).lenPhys (b1.toBase ℝ).lenPhys (b1.toBase ℝ).lenPhys N _
        rw [lp0, lp1]
        refine hA.congr fun r hr p hp q hq s hs => ?_
        rw [nth_map _ _ _ (by rw [xl]; exact hp), nth_map _ _ _ (by rw [yl]; exact hq),
          nth_map _ _ _ (by rw [yl]; exact hs)]
        rfl)
  obtain ⟨g, hg, sg⟩ := hgr rfl d0 d1 d2 scale hsc hne N X Y Z GX GY GZ
    (fun r hr => ⟨lX r hr, lY r hr, lZ r hr, gX r hr, gY r hr, gZ r hr⟩) v
    (sv.congr fun r _ k _ l _ m _ => by simp only [smul_eq_mul]; ring)
  set c := (scale3 d0 d1 d2 scale)⁻¹ with hc
  obtain ⟨w, hw, sw⟩ := hbw N (fun r => x.map (Polynomial.derivative^[d0] (P r)).eval)
    (fun r => y.map (Polynomial.derivative^[d1] (Q r)).eval)
    (fun r => (y.map (Polynomial.derivative^[d2] (W r)).eval).map (c * ·)) GX GY (fun r => (GZ r).map (c * ·))
    (fun r hr => ⟨(lGX r hr).trans ls0.symm, (lGY r hr).trans ls1.symm, by
        rw [List.length_map]; exact (lGZ r hr).trans ls1.symm, by
        show Returns _ (o0.toBase ℝ).lenPhys _ _
        rw [lo0]; simpa [Function.comp_def] using bX r hr, by
        show Returns _ (o1.toBase ℝ).lenPhys _ _
        rw [lo1]; simpa [Function.comp_def] using bY r hr, by
        show Returns _ (o1.toBase ℝ).lenPhys _ _
        obtain ⟨β, cβ, lβ⟩ := i1.bwdLin
        have hl : (GZ r).length = (o1.toBase ℝ).lenSpec := (lGZ r hr).trans ls1.symm
        have eb := returns_of cβ hl (by rw [lo1]; exact bZ r hr)
        have e1 : (GZ r).map (c * ·) = linComb ℝ c 0 (GZ r) (GZ r) := by
          refine ext_nth (by simp [linComb]) fun i hi => ?_
          have hi' : i < (GZ r).length := by simpa using hi
          rw [nth_map _ _ _ hi', linComb, nth_map_range _ _ _ hi']; simp
        have e2 : (y.map (Polynomial.derivative^[d2] (W r)).eval).map (c * ·) = β ((GZ r).map (c * ·)) := by
          rw [e1, lβ _ _ _ _ hl hl, ← eb]
          refine ext_nth (by simp [linComb]) fun i hi => ?_
          have hi' : i < (y.map (Polynomial.derivative^[d2] (W r)).eval).length := by simpa using hi
          rw [nth_map _ _ _ hi', linComb, nth_map_range _ _ _ hi']; simp
        rw [e2]
        exact fun out ho => (cβ _ out (by rw [List.length_map]; exact hl) ho).1⟩) g (by
          show SumOf3 g (o0.toBase ℝ).lenSpec (o1.toBase ℝ).lenSpec (o1.toBase ℝ).lenSpec N _
          rw [ls0, ls1]
          have sg' := sg
          rw [show sp.base0.lenOrth = n0 from lt0, show sp.base1.lenOrth = n1 from lt1] at sg'
          refine sg'.congr fun r hr k _ l _ m hm => ?_
          rw [nth_map _ _ _ (by rw [lGZ r hr]; exact hm)]
          simp only [smul_eq_mul]; ring)
  refine ⟨v, g, w, hv, hg, hw, ?_⟩
  rw [show so.base0.lenPhys = n0 from lo0, show so.base1.lenPhys = n1 from lo1] at sw
  refine sw.congr fun r hr p hp q hq s hs => ?_
  rw [nth_map _ _ _ (by rw [xl]; exact hp), nth_map _ _ _ (by rw [yl]; exact hq),
    nth_map _ _ _ (by rw [List.length_map, yl]; exact hs), nth_map _ _ _ (by rw [yl]; exact hs)]
  simp only [smul_eq_mul]; ring

/-- `f(x,y,z) = (1 - x²) y (1 - z)` in Dirichlet×Chebyshev×Chebyshev -/
example : (1 - Polynomial.X ^ 2 : Polynomial ℝ).degree < (8 : ℕ) ∧
    PolyBC (some .dirichlet) (1 - Polynomial.X ^ 2 : Polynomial ℝ) ∧
    (Polynomial.X : Polynomial ℝ).degree < (6 : ℕ) ∧ PolyBC none (Polynomial.X : Polynomial ℝ) ∧
    (1 - Polynomial.X : Polynomial ℝ).degree < (6 : ℕ) ∧ PolyBC none (1 - Polynomial.X : Polynomial ℝ) := by
  refine ⟨?_, by simp [PolyBC], ?_, trivial, ?_, trivial⟩
  · refine lt_of_le_of_lt (Polynomial.degree_sub_le _ _) ?_
    rw [Polynomial.degree_one, Polynomial.degree_X_pow]
    decide
  · rw [Polynomial.degree_X]; decide
  · refine lt_of_le_of_lt (Polynomial.degree_sub_le _ _) ?_
    rw [Polynomial.degree_one, Polynomial.degree_X]
    decide

/-- The slice operations of a real-to-real base for complex coefficients, on real ones. -/
theorem r2r_complex (b : BaseR2r) (d : ℕ) :
    (b.toBase ℂ).forwardSlice = (b.toBase ℝ).forwardSlice ∧ (b.toBase ℂ).backwardSlice = (b.toBase ℝ).backwardSlice ∧
    (b.toBase ℂ).lenSpec = (b.toBase ℝ).lenSpec ∧ (b.toBase ℂ).lenPhys = (b.toBase ℝ).lenPhys ∧
    (b.toBase ℂ).lenOrth = (b.toBase ℝ).lenOrth ∧ (b.toBase ℂ).coords = (b.toBase ℝ).coords ∧
    ∀ v out g : List ℝ, (b.toBase ℝ).gradientSlice v out d = ok g →
      (b.toBase ℂ).gradientSlice (v.map (↑)) (out.map (↑)) d = ok (g.map (↑)) := by
  refine ⟨?_, ?_, ?_, ?_, ?_, ?_, fun v out g h => ?_⟩
  iterate 6 cases b <;> rfl
  have e := (C95_slices (T := ℝ) (T' := ℂ) C95_of_real b v out d).2.2
  rw [h] at e
  exact e

/-- C59 for the Fourier base, for every output buffer, every order, and with the highest cosine of an even number of
points. -/
theorem C59_returns_r2c (n M : ℕ) (hM : 2 * M ≤ n) (b : Base ℝ ℂ ℂ) (hb : IsR2c n b) :
    ∃ x, b.coords = ok x ∧ x.length = n ∧ ∀ (d : ℕ) (A B : ℕ → ℝ), (2 * M = n → B M = 0) →
        ∃ v g, v.length = b.lenSpec ∧ g.length = b.lenOrth ∧
          Returns b.forwardSlice b.lenSpec (x.map (trigPoly M A B)) v ∧
          Returns (fun v out => b.gradientSlice v out d) b.lenOrth v g ∧
          Returns b.backwardSlice n g (x.map (iteratedDeriv d (trigPoly M A B))) := by
  obtain ⟨φ, cφ, -⟩ := hb.fwdLin
  obtain ⟨β, cβ, -⟩ := hb.bwdLin
  have gl := hb.gradLin
  obtain ⟨hn, b0, hb0, rfl⟩ := hb
  obtain rfl := r2c_inv hb0
  obtain ⟨x, β', hx, hxl, -, -⟩ := r2c_evaluates (show IsR2c n _ from ⟨hn, _, hb0, rfl⟩)
  have hxl : x.length = n := hxl
  refine ⟨x, hx, hxl, fun d A B hB => ?_⟩
  obtain ⟨c, hcl, hc0, hcN, hct⟩ := trig_span n M hn hM A B hB
  have ht : ∀ (g : List ℂ) (d : ℕ), (∀ i < n / 2 + 1, nth g i = (Complex.I * i) ^ d * nth c i) →
      ∀ t, trigR n g t = iteratedDeriv d (trigPoly M A B) t := by
    intro g d hg t
    rw [← hct d t, trigR, Finset.mul_sum]
    refine Finset.sum_congr rfl fun i hi => ?_
    rw [hg i (mem_range.mp hi)]
    unfold r2cTerm expFn
    rfl
  have key : ∀ (g : List ℂ) (d : ℕ), g.length = n / 2 + 1 → (∀ i < n / 2 + 1, nth g i = (Complex.I * i) ^ d * nth c i) →
      R2c.backwardSlice ⟨n, n / 2 + 1⟩ g (List.replicate n 0) = ok (x.map (iteratedDeriv d (trigPoly M A B))) := by
    intro g d hgl hg
    obtain ⟨x', v, hx', hv, hvl, hve⟩ := C28_backward_evaluates n hn ⟨n, n / 2 + 1⟩ rfl g (List.replicate n 0) hgl
      (List.length_replicate ..)
    obtain rfl := Res.ok.inj ((show R2c.coords _ = ok x from hx).symm.trans hx')
    rw [hv]
    congr 1
    exact ext_nth (by simpa using hvl) fun j hj => by
      rw [hve j (by omega), nth_map _ _ _ (by omega), ht g d hg]
  obtain ⟨v, hv, -, hvf⟩ := C28_forward_backward n hn ⟨n, n / 2 + 1⟩ rfl c (List.replicate (n / 2 + 1) 0)
    (List.replicate n 0) hcl (List.length_replicate ..) (List.length_replicate ..) hc0 hcN
  obtain rfl : v = x.map (trigPoly M A B) := by
    have := key c 0 hcl (fun i _ => by rw [pow_zero, one_mul])
    rw [iteratedDeriv_zero] at this
    exact Res.ok.inj (hv.symm.trans this)
  have h2 := r2c_gradient_eq ⟨n, n / 2 + 1⟩ c (List.replicate (n / 2 + 1) 0) d hcl (List.length_replicate ..)
  obtain ⟨γ, cγ, -⟩ := gl d
  obtain ⟨r1, l1⟩ := returns_of_computes cφ (by rw [List.length_map, hxl]; rfl) (List.length_replicate ..) hvf
  obtain ⟨r2, l2⟩ := returns_of_computes cγ l1 (List.length_replicate ..) h2
  obtain ⟨r3, -⟩ := returns_of_computes cβ l2 (List.length_replicate ..) (key _ d l2 fun i hi => by
    rw [nth_map_range _ _ _ hi, mul_comm])
  exact ⟨c, _, l1, l2, r1, r2, r3⟩

/-- C59 for BaseR2c×BaseR2r×BaseR2r with equal second and third bases: as `C59_space3_r2r`, with trigonometric
polynomials of frequencies up to `n0/2` in the first variable (without `sin(n0/2 x)`, which vanishes on the grid). -/
theorem C59_space3_r2c_r2r (n0 M : ℕ) (hM : 2 * M ≤ n0) (bx : Base ℝ ℂ ℂ) (hbx : IsR2c n0 bx)
    (k1 : Option CKind) (n1 : ℕ) (b1 o1 : BaseR2r)
    (hb1 : newR2r k1 n1 = ok b1) (hm1 : RunsMul k1) (hs1 : RunsSolve k1 n1) (hg1 : RunsGrad k1 n1)
    (ho1 : chebyshev n1 = ok o1)
    (N : ℕ) (A B : ℕ → ℕ → ℝ) (hB : 2 * M = n0 → ∀ r < N, B r M = 0) (Q W : ℕ → Polynomial ℝ)
    (hQ : ∀ r < N, (Q r).degree < n1 ∧ PolyBC k1 (Q r))
    (hW : ∀ r < N, (W r).degree < n1 ∧ PolyBC k1 (W r))
    (d0 d1 d2 : ℕ) (scale : Option (ℝ × ℝ × ℝ))
    (hsc : scale ≠ none → d0 < 2 ^ 31 ∧ d1 < 2 ^ 31 ∧ d2 < 2 ^ 31)
    (hne : scale3 d0 d1 d2 scale ≠ 0) :
    let sp : Space3 ℝ ℝ ℝ ℂ ℂ := ⟨bx, b1.toBase ℂ, b1.toBase ℂ⟩
    let so : Space3 ℝ ℝ ℝ ℂ ℂ := ⟨bx, o1.toBase ℂ, o1.toBase ℂ⟩
    ∃ x y, sp.coords = ok [x, y, y] ∧ so.coords = ok [x, y, y] ∧ ∀ F : Arr ℝ,
      SumOf3 F n0 n1 n1 N
        (fun r p q s => trigPoly M (A r) (B r) (nth x p) * (Q r).eval (nth y q) * (W r).eval (nth y s)) →
      ∃ v g w, sp.forward F = ok v ∧ sp.gradient v d0 d1 d2 scale = ok g ∧ so.backward g = ok w ∧
        SumOf3 w n0 n1 n1 N fun r p q s => (scale3 d0 d1 d2 scale)⁻¹ *
          (iteratedDeriv d0 (trigPoly M (A r) (B r)) (nth x p) * (Polynomial.derivative^[d1] (Q r)).eval (nth y q)
            * (Polynomial.derivative^[d2] (W r)).eval (nth y s)) := by
  intro sp so
  obtain ⟨-, lp1, lo1, ls1, lt1⟩ := r2r_coords (T := ℝ) hb1 (o := o1) ho1
  obtain ⟨x, hx, xl, fx⟩ := C59_returns_r2c n0 M hM bx hbx
  obtain ⟨y, hy, hy', yl, fy⟩ := C59_returns k1 n1 b1 o1 hb1 hm1 hs1 hg1 ho1
  choose! X GX lX lGX fX gX bX using fun r (hr : r < N) => fx d0 (A r) (B r) (fun h => hB h r hr)
  choose! Y GY lY lGY fY gY bY using fun r (hr : r < N) => fy d1 (Q r) (hQ r hr)
  choose! Z GZ lZ lGZ fZ gZ bZ using fun r (hr : r < N) => fy d2 (W r) (hW r hr)
  obtain ⟨bf, bb, bs, bp, bo, bc, -⟩ := r2r_complex b1 0
  obtain ⟨of, ob, os, op, oo, oc, -⟩ := r2r_complex o1 0
  have bg := fun d => (r2r_complex b1 d).2.2.2.2.2.2
  have l0 : bx.lenPhys = n0 ∧ bx.lenSpec = bx.lenOrth := by
    obtain ⟨hn, b0, hb, rfl⟩ := hbx
    obtain rfl := r2c_inv hb
    exact ⟨rfl, rfl⟩
  have f1 : IsFullR2r (b1.toBase ℂ) := ⟨k1, n1, b1, hb1, hm1, hs1, hg1, rfl⟩
  have i1 : IsR2r (o1.toBase ℂ) := ⟨none, n1, o1, ho1, trivial, trivial, rfl⟩
  obtain ⟨hfw, -, -, hgr⟩ := (C110_spaces3 n0 0 0).2.1 sp hbx f1 f1
  have hbw := C110_space3_backward (R := ℝ) so hbx.bwdLin i1.bwdLin i1.bwdLin
  have hco : ∀ (sp : Space3 ℝ ℝ ℝ ℂ ℂ), sp.base0.coords = ok x → sp.base1.coords = ok y → sp.base2.coords = ok y →
      sp.coords = ok [x, y, y] := fun sp h0 h1 h2 => by
    show (do let c0 ← sp.base0.coords
             let c1 ← sp.base1.coords
             let c2 ← sp.base2.coords
             pure [c0, c1, c2]) = _
    rw [h0, h1, h2]; rfl
  -- gradients of the real coefficients as complex ones
  have hG : ∀ (d : ℕ) (v g : List ℝ), v.length = (b1.toBase ℝ).lenSpec →
      Returns (fun v out => (b1.toBase ℝ).gradientSlice v out d) (b1.toBase ℝ).lenOrth v g →
      Returns (fun v out => (b1.toBase ℂ).gradientSlice v out d) (b1.toBase ℂ).lenOrth (v.map (↑)) (g.map (↑)) := by
    intro d v g hv h
    obtain ⟨γ, cγ, -⟩ := isFull_gradLin f1 d
    refine (returns_of_computes cγ (by rw [List.length_map, hv, bs]) (out := (List.replicate n1 (0 : ℝ)).map (↑))
      (by rw [bo, lt1]; simp) ?_).1
    exact bg d v _ g (h (List.replicate n1 0) (by rw [lt1]; simp))
  refine ⟨x, y, hco sp hx (bc.trans hy) (bc.trans hy), hco so hx (oc.trans hy') (oc.trans hy'), fun F hF => ?_⟩
  obtain ⟨v, hv, sv⟩ := hfw N (fun r => x.map (trigPoly M (A r) (B r))) (fun r => y.map (Q r).eval)
    (fun r => y.map (W r).eval) X Y Z
    (fun r hr => ⟨by rw [List.length_map, xl]; exact l0.1.symm, by rw [List.length_map, yl]; exact (bp.trans lp1).symm,
      by rw [List.length_map, yl]; exact (bp.trans lp1).symm,
      by simpa [Function.comp_def] using fX r hr, by
        show Returns (b1.toBase ℂ).forwardSlice (b1.toBase ℂ).lenSpec _ _
        rw [bf, bs]; simpa [Function.comp_def] using fY r hr, by
        show Returns (b1.toBase ℂ).forwardSlice (b1.toBase ℂ).lenSpec _ _
        rw [bf, bs]; exact fZ r hr⟩) F (by
        show SumOf3 F bx.lenPhys (b1.toBase ℂ).lenPhys (b1.toBase ℂ).lenPhys N _
        rw [l0.1, bp, lp1]
        refine hF.congr fun r hr p hp q hq s hs => ?_
        rw [nth_map _ _ _ (by rw [xl]; exact hp), nth_map _ _ _ (by rw [yl]; exact hq),
          nth_map _ _ _ (by rw [yl]; exact hs)]
        rfl)
  obtain ⟨g, hg, sg⟩ := hgr rfl d0 d1 d2 scale hsc hne N X (fun r => (Y r).map (↑)) (fun r => (Z r).map (↑)) GX
    (fun r => (GY r).map (↑)) (fun r => (GZ r).map (↑))
    (fun r hr => ⟨lX r hr, by rw [List.length_map, lY r hr]; exact bs.symm, by rw [List.length_map, lZ r hr]; exact bs.symm,
      gX r hr, hG d1 _ _ (lY r hr) (gY r hr), hG d2 _ _ (lZ r hr) (gZ r hr)⟩) v
    (sv.congr fun r hr k _ l hl m hm => by
      have hl' : l < (b1.toBase ℂ).lenSpec := hl
      have hm' : m < (b1.toBase ℂ).lenSpec := hm
      rw [nth_map _ _ _ (by rw [lY r hr, ← bs]; exact hl'), nth_map _ _ _ (by rw [lZ r hr, ← bs]; exact hm')]
      simp only [smul_eq_mul, Complex.real_smul, Complex.ofReal_mul]; ring)
  set c := (scale3 d0 d1 d2 scale)⁻¹ with hc
  obtain ⟨w, hw, sw⟩ := hbw N (fun r => x.map (iteratedDeriv d0 (trigPoly M (A r) (B r))))
    (fun r => y.map (Polynomial.derivative^[d1] (Q r)).eval)
    (fun r => (y.map (Polynomial.derivative^[d2] (W r)).eval).map (c * ·)) GX GY (fun r => (GZ r).map (c * ·))
    (fun r hr => ⟨(lGX r hr).trans l0.2.symm, (lGY r hr).trans (os.trans ls1).symm, by
        rw [List.length_map]; exact (lGZ r hr).trans (os.trans ls1).symm, by
        show Returns _ bx.lenPhys _ _
        rw [l0.1]; simpa [Function.comp_def] using bX r hr, by
        show Returns (o1.toBase ℂ).backwardSlice (o1.toBase ℂ).lenPhys _ _
        rw [ob, op, lo1]; simpa [Function.comp_def] using bY r hr, by
        show Returns (o1.toBase ℂ).backwardSlice (o1.toBase ℂ).lenPhys _ _
        obtain ⟨β, cβ, lβ⟩ := i1.bwdLin
        have hl : (GZ r).length = (o1.toBase ℂ).lenSpec := (lGZ r hr).trans (os.trans ls1).symm
        have eb := returns_of cβ hl (by rw [ob, op, lo1]; exact bZ r hr)
        have e1 : (GZ r).map (c * ·) = linComb ℝ c 0 (GZ r) (GZ r) := by
          refine ext_nth (by simp [linComb]) fun i hi => ?_
          have hi' : i < (GZ r).length := by simpa using hi
          rw [nth_map _ _ _ hi', linComb, nth_map_range _ _ _ hi']; simp
        have e2 : (y.map (Polynomial.derivative^[d2] (W r)).eval).map (c * ·) = β ((GZ r).map (c * ·)) := by
          rw [e1, lβ _ _ _ _ hl hl, ← eb]
          refine ext_nth (by simp [linComb]) fun i hi => ?_
          have hi' : i < (y.map (Polynomial.derivative^[d2] (W r)).eval).length := by simpa using hi
          rw [nth_map _ _ _ hi', linComb, nth_map_range _ _ _ hi']; simp
        rw [e2]
        exact fun out ho => (cβ _ out (by rw [List.length_map]; exact hl) ho).1⟩) g (by
          show SumOf3 g bx.lenSpec (o1.toBase ℂ).lenSpec (o1.toBase ℂ).lenSpec N _
          rw [os, ls1, l0.2]
          have sg' := sg
          rw [show sp.base1.lenOrth = n1 from bo.trans lt1] at sg'
          refine sg'.congr fun r hr k _ l hl m hm => ?_
          rw [nth_map _ _ _ (by rw [lGY r hr]; exact hl), nth_map _ _ _ (by rw [lGZ r hr]; exact hm),
            nth_map _ _ _ (by rw [lGZ r hr]; exact hm)]
          simp only [smul_eq_mul, Complex.real_smul, Complex.ofReal_mul]; ring)
  refine ⟨v, g, w, hv, hg, hw, ?_⟩
  rw [show so.base0.lenPhys = n0 from l0.1, show so.base1.lenPhys = n1 from op.trans lo1] at sw
  refine sw.congr fun r hr p hp q hq s hs => ?_
  rw [nth_map _ _ _ (by rw [xl]; exact hp), nth_map _ _ _ (by rw [yl]; exact hq),
    nth_map _ _ _ (by rw [List.length_map, yl]; exact hs), nth_map _ _ _ (by rw [yl]; exact hs)]
  simp only [smul_eq_mul]; ring

/-- the hypotheses of `C59_space3_r2c_r2r`: `fourier_r2c(16) × cheb_dirichlet(8)²` -/
example : (∃ bx, IsR2c 16 bx) ∧ (∃ b o, newR2r (some .dirichlet) 8 = ok b ∧ RunsMul (some .dirichlet) ∧
    RunsSolve (some .dirichlet) 8 ∧ RunsGrad (some .dirichlet) 8 ∧ chebyshev 8 = ok o) := by
  obtain ⟨bx, hbx, -⟩ := isR2c_exists (n := 16) (by decide)
  obtain ⟨b, hb⟩ := newR2r_exists (some .dirichlet) 8 (by norm_num) (by rintro c ⟨⟩; decide)
  obtain ⟨o, ho⟩ := newR2r_exists none 8 (by norm_num) (by rintro c ⟨⟩)
  exact ⟨⟨bx, hbx⟩, b, o, hb, Or.inl rfl, by show (5 : ℕ) ≤ 8; norm_num, Or.inl rfl, ho⟩

end Verif.Props
