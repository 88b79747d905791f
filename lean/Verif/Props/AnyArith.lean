/-
Properties C68 and C69: everything that does not depend on the values of the numbers, in an arbitrary
arithmetic (`Spec.Arith`: no law is assumed of `+`, `-`, `*`, `/`; floating-point numbers are an instance).
-/
import Verif.Proof.AnyFail
import Verif.Props.SpaceOps
import Verif.Props.Axis
import Verif.Props.Sizes
import Verif.Props.Solvers
import Verif.Spec.FloatArith
import Verif.Proof.Dist

namespace Verif.Props
open Res Spec

section
variable {A T C : Type} [Arith A] [ArithOn A T] [CArith A C]

/-! ### construction and sizes -/

/-- C68: from the minimum size on the constructors return, below they panic, in every arithmetic. -/
theorem C68_new (k : Option CKind) (n : ℕ) :
    (k.elim 2 CKind.minNew ≤ n → ∃ b, newR2r k n A = ok b) ∧
    (n < k.elim 2 CKind.minNew → newR2r k n A = err .panic) := by
  refine ⟨fun h => ?_, fun h => ?_⟩
  · cases k with
    | none => exact ⟨.chebyshev ⟨n, n⟩, by show chebyshev n A = _; unfold chebyshev; rw [cheb_new_ok h]; rfl⟩
    | some c =>
      obtain ⟨b, hb, -⟩ := wp_total.mp (Compo.new_sized (K := A) (Q := fun _ => False) c n h)
      exact ⟨.chebyshevComposite b, by show chebComposite c n A = _; unfold chebComposite; rw [hb]; rfl⟩
  · cases k with
    | none =>
      have h' : ¬ n > 1 := by simp only [Option.elim] at h; omega
      show chebyshev n A = _
      unfold chebyshev Cheb.new assertR
      rw [if_neg h']
      rfl
    | some c =>
      show chebComposite c n A = _
      unfold chebComposite
      rw [Compo.new_small c n h]
      rfl

/-- C68: the sizes of the real-to-real bases. -/
theorem C68_sizes (k : Option CKind) (n : ℕ) (b : BaseR2r A) (hb : newR2r k n A = ok b) :
    (b.toBase T).lenPhys = n ∧ (b.toBase T).lenOrth = n ∧
    (b.toBase T).lenSpec = k.elim n (fun k => n - k.nbc) := by
  cases k with
  | none => obtain ⟨hn, rfl⟩ := chebyshev_inv hb; exact ⟨rfl, rfl, rfl⟩
  | some k =>
    obtain ⟨c, hc, rfl⟩ := composite_inv hb
    have hw := Compo.sized_of_new hc
    exact ⟨hw.n_eq, by show c.lenOrth = n; simp [Compo.lenOrth, Cheb.lenOrth, hw.ortho], hw.m_eq⟩

theorem sized_orth {k : CKind} {n : ℕ} {c : Compo A} (hw : c.Sized k n) : c.lenOrth = n := by
  simp [Compo.lenOrth, Cheb.lenOrth, hw.ortho]

/-! ### the banded solvers -/

/-- C68: with numbers of any arithmetic, the unchecked and the checked solvers return the same vector,
of the size of the right-hand side, for bands of the expected lengths and sizes from the minimum on
(a vanishing pivot does not stop them: the division gives an infinity or a NaN). -/
theorem C68_solvers (l4 l2 l1 d0 u1 u2 u4 : List A) (rhs : List T)
    (h4 : l4.length = rhs.length - 4) (h2 : l2.length = rhs.length - 2)
    (h1 : l1.length = rhs.length - 1) (hd : d0.length = rhs.length)
    (hu1 : u1.length = rhs.length - 1) (hu2 : u2.length = rhs.length - 2)
    (hu4 : u4.length = rhs.length - 4) :
    (3 ≤ rhs.length → ∃ x, tdma l2 d0 u2 rhs = ok x ∧ tdmaChecked l2 d0 u2 rhs = ok x ∧
      x.length = rhs.length) ∧
    (4 ≤ rhs.length → ∃ x, pdma l2 l1 d0 u1 u2 rhs = ok x ∧
      pdmaChecked l2 l1 d0 u1 u2 rhs = ok x ∧ x.length = rhs.length) ∧
    (6 ≤ rhs.length → ∃ x, pdma2 l4 l2 d0 u2 u4 rhs = ok x ∧
      pdma2Checked l4 l2 d0 u2 u4 rhs = ok x ∧ x.length = rhs.length) := by
  haveI : DivNoUb A A := ⟨fun x a h => by obtain ⟨y, hy⟩ := TotalDiv.div x a; rw [hy] at h; cases h⟩
  haveI : DivNoUb A T := ⟨fun x a h => by obtain ⟨y, hy⟩ := TotalDiv.div x a; rw [hy] at h; cases h⟩
  obtain ⟨a, b, c⟩ := C20_checked_unchecked_agree l4 l2 l1 d0 u1 u2 u4 rhs
  refine ⟨fun hn => ?_, fun hn => ?_, fun hn => ?_⟩
  · obtain ⟨x, hx, hl⟩ := wp_total.mp (tdma_len (Q := fun _ => False) l2 d0 u2 rhs hn rfl h2 hd hu2)
    exact ⟨x, hx, by rw [a, hx]; rfl, hl⟩
  · obtain ⟨x, hx, hl⟩ := wp_total.mp (pdma_len (Q := fun _ => False) hn rfl h2 h1 hd hu1 hu2)
    exact ⟨x, hx, by rw [b, hx]; rfl, hl⟩
  · obtain ⟨x, hx, hl⟩ := wp_total.mp (pdma2_len (Q := fun _ => False) hn rfl h4 h2 hd hu2 hu4)
    exact ⟨x, hx, by rw [c, hx]; rfl, hl⟩

/-! ### the slice operators -/

theorem failsOn_small {k : CKind} {n : ℕ} {b : Compo A} (hb : b.Sized k n) (hs : n < k.minSolve)
    (u v : List T) (hu : u.length = n) (hv : v.length = b.m) : b.fromOrthoSlice u v = err .panic := by
  obtain ⟨h1, h2, h3, h4, h5⟩ := hb
  unfold Compo.fromOrthoSlice Stencils.solve
  cases k <;> simp only [] at h5 <;> obtain ⟨s, hs', hw⟩ := h5 <;> rw [hs'] <;>
    simp only [CKind.nbc, CKind.minSolve, CKind.minNew] at h2 h3 hs
  · exact Stencil2.solve_small_any hw (by omega) u v (by omega) hv
  · exact Stencil2.solve_small_any hw (by omega) u v (by omega) hv
  · exact Stencil3.solve_small_any hw (by omega) u v (by omega) hv
  · exact Stencil4.solve_small_any hw (by omega) u v (by omega) hv
  · exact Stencil4.solve_small_any hw (by omega) u v (by omega) hv

theorem biharmonic_ub {k : CKind} {n : ℕ} {b : Compo A} (hb : b.Sized k n) (hk : k.nbc = 4)
    (v u : List T) (hv : v.length = b.m) (hu : u.length = n) : b.toOrthoSlice v u = err .ub := by
  obtain ⟨h1, h2, h3, h4, h5⟩ := hb
  unfold Compo.toOrthoSlice Stencils.dot
  cases k <;> simp only [CKind.nbc, CKind.minNew] at h2 h3 hk <;> simp only [] at h5 <;>
    first
    | omega
    | (obtain ⟨s, hs', hw⟩ := h5; rw [hs']
       exact Stencil4.dot_ub_any hw (by omega) v u hv (by omega))

theorem nbc_of_not_mul {c : CKind} (h : ¬ RunsMul (some c)) : c.nbc = 4 := by
  cases c <;> first | rfl | exact absurd (by simp [RunsMul]) h

theorem nbc_of_mul {c : CKind} (h : RunsMul (some c)) : c.nbc = 2 := by
  rcases h with rfl | rfl | rfl <;> rfl

/-- C68: `from_ortho` of every constructible real-to-real base: from the minimum size of the solver on it
returns a vector of the right length that does not depend on the output slice; below it panics. -/
theorem C68_from_ortho (k : Option CKind) (n : ℕ) (b : BaseR2r A) (hb : newR2r k n A = ok b) :
    (RunsSolve k n → ∃ g, Computes (b.toBase T).fromOrthoSlice (b.toBase T).lenOrth (b.toBase T).lenSpec g) ∧
    (¬ RunsSolve k n →
      FailsOn .panic (b.toBase T).fromOrthoSlice (b.toBase T).lenOrth (b.toBase T).lenSpec) := by
  cases k with
  | none =>
    obtain ⟨hn, rfl⟩ := chebyshev_inv hb
    exact ⟨fun _ => zipSet_id_computes n, fun h => absurd trivial h⟩
  | some c =>
    obtain ⟨b', hb', rfl⟩ := composite_inv hb
    have hw := Compo.sized_of_new hb'
    refine ⟨fun h => ?_, fun h => ?_⟩
    · show ∃ g, Computes b'.fromOrthoSlice b'.lenOrth b'.m g
      rw [sized_orth hw]
      exact Compo.fromOrtho_any hw h
    · intro x out hx ho
      change x.length = b'.lenOrth at hx
      rw [sized_orth hw] at hx
      exact failsOn_small hw (Nat.lt_of_not_le h) x out hx ho

/-- C68: `forward` likewise. -/
theorem C68_forward (k : Option CKind) (n : ℕ) (b : BaseR2r A) (hb : newR2r k n A = ok b) :
    (RunsSolve k n → ∃ g, Computes (b.toBase T).forwardSlice (b.toBase T).lenPhys (b.toBase T).lenSpec g) ∧
    (¬ RunsSolve k n →
      FailsOn .panic (b.toBase T).forwardSlice (b.toBase T).lenPhys (b.toBase T).lenSpec) := by
  cases k with
  | none =>
    obtain ⟨hn, rfl⟩ := chebyshev_inv hb
    exact ⟨fun _ => Cheb.forward_any hn, fun h => absurd trivial h⟩
  | some c =>
    obtain ⟨b', hb', rfl⟩ := composite_inv hb
    have hw := Compo.sized_of_new hb'
    have hp : b'.lenPhys = n := hw.n_eq
    refine ⟨fun h => ?_, fun h => ?_⟩
    · show ∃ g, Computes b'.forwardSlice b'.lenPhys b'.m g
      rw [hp]
      exact Compo.forward_any hw h
    · intro x out hx ho
      change x.length = b'.lenPhys at hx
      rw [hp] at hx
      have h2 : 2 ≤ n := le_trans (by cases c <;> decide) hw.le
      obtain ⟨g, hg⟩ := Cheb.forward_any (A := A) h2
      obtain ⟨e, hl⟩ := hg x (List.replicate n 0) hx (by simp)
      show b'.forwardSlice x out = _
      unfold Compo.forwardSlice
      dsimp only
      rw [hw.ortho, sized_orth hw, e, bind_ok]
      exact failsOn_small hw (Nat.lt_of_not_le h) _ out hl ho

/-- C68: `to_ortho` returns for every constructible base that is not biharmonic; on the biharmonic bases it
reads out of bounds at every size, in every arithmetic. -/
theorem C68_to_ortho (k : Option CKind) (n : ℕ) (b : BaseR2r A) (hb : newR2r k n A = ok b) :
    (RunsMul k → ∃ g, Computes (b.toBase T).toOrthoSlice (b.toBase T).lenSpec (b.toBase T).lenOrth g) ∧
    (¬ RunsMul k →
      FailsOn .ub (b.toBase T).toOrthoSlice (b.toBase T).lenSpec (b.toBase T).lenOrth) := by
  cases k with
  | none =>
    obtain ⟨hn, rfl⟩ := chebyshev_inv hb
    exact ⟨fun _ => zipSet_id_computes n, fun h => absurd trivial h⟩
  | some c =>
    obtain ⟨b', hb', rfl⟩ := composite_inv hb
    have hw := Compo.sized_of_new hb'
    refine ⟨fun h => ?_, fun h => ?_⟩
    · show ∃ g, Computes b'.toOrthoSlice b'.m b'.lenOrth g
      rw [sized_orth hw]
      exact Compo.toOrtho_any hw (nbc_of_mul h)
    · intro x out hx ho
      change out.length = b'.lenOrth at ho
      rw [sized_orth hw] at ho
      exact biharmonic_ub hw (nbc_of_not_mul h) x out hx ho

/-- C68: `backward` likewise. -/
theorem C68_backward (k : Option CKind) (n : ℕ) (b : BaseR2r A) (hb : newR2r k n A = ok b) :
    (RunsMul k → ∃ g, Computes (b.toBase T).backwardSlice (b.toBase T).lenSpec (b.toBase T).lenPhys g) ∧
    (¬ RunsMul k →
      FailsOn .ub (b.toBase T).backwardSlice (b.toBase T).lenSpec (b.toBase T).lenPhys) := by
  cases k with
  | none =>
    obtain ⟨hn, rfl⟩ := chebyshev_inv hb
    exact ⟨fun _ => Cheb.backward_any hn, fun h => absurd trivial h⟩
  | some c =>
    obtain ⟨b', hb', rfl⟩ := composite_inv hb
    have hw := Compo.sized_of_new hb'
    refine ⟨fun h => ?_, fun h => ?_⟩
    · show ∃ g, Computes b'.backwardSlice b'.m b'.n g
      rw [hw.n_eq]
      exact Compo.backward_any hw (nbc_of_mul h)
    · intro x out hx ho
      show b'.backwardSlice x out = _
      unfold Compo.backwardSlice
      dsimp only
      rw [biharmonic_ub hw (nbc_of_not_mul h) x _ hx (by simp [sized_orth hw]), bind_err]

/-- C68: `gradient`, of every order, likewise; `chebyshev(2)` supports order zero only. -/
theorem C68_gradient (k : Option CKind) (n : ℕ) (b : BaseR2r A) (hb : newR2r k n A = ok b) (d : ℕ) :
    (RunsGrad k n ∨ k = none ∧ d = 0 → RunsGradient (b.toBase T) d) ∧
    (¬ (RunsGrad k n ∨ k = none ∧ d = 0) →
      FailsOn .ub (fun x out => (b.toBase T).gradientSlice x out d)
        (b.toBase T).lenSpec (b.toBase T).lenOrth) := by
  cases k with
  | none =>
    obtain ⟨hn, rfl⟩ := chebyshev_inv hb
    refine ⟨fun h => ?_, fun h => ?_⟩
    · by_cases h3 : 3 ≤ n
      · exact Cheb.gradient_any (K := A) h3 d
      · obtain rfl : d = 0 := by
          rcases h with h | ⟨-, h⟩
          · exact absurd h h3
          · exact h
        refine computes_i fun x hx => ⟨x, hx, fun out ho => ?_⟩
        show Cheb.gradientSlice A ⟨n, n⟩ x out 0 = _
        unfold Cheb.gradientSlice assertR
        rw [if_pos (show out.length = n from ho), bind_ok,
          zipSet_eq_map _ _ _ (hx.trans ho.symm), List.map_id]
        rfl
    · push Not at h
      obtain rfl : n = 2 := by
        have := h.1; simp only [RunsGrad] at this; omega
      intro x out hx ho
      change x.length = 2 at hx
      change out.length = 2 at ho
      obtain ⟨e, rfl⟩ := Nat.exists_eq_succ_of_ne_zero (h.2 rfl)
      show Cheb.gradientSlice A ⟨2, 2⟩ x out (e + 1) = _
      unfold Cheb.gradientSlice assertR
      rw [if_pos (show out.length = (⟨2, 2⟩ : Cheb).m from ho), bind_ok]
      show forRange 0 (e + 1) _ _ = _
      unfold forRange
      rw [show e + 1 - 0 = e + 1 by omega, List.range'_succ]
      show (chebGradPass A 2 (zipSet id x out) >>= _) = _
      rw [chebGradPass_two_any _ (by
        rw [zipSet_eq_map _ _ _ (hx.trans ho.symm), List.map_id]; exact hx)]
      rfl
  | some c =>
    obtain ⟨b', hb', rfl⟩ := composite_inv hb
    have hw := Compo.sized_of_new hb'
    refine ⟨fun h => ?_, fun h => ?_⟩
    · have h' : RunsMul (some c) := by
        rcases h with h | ⟨h, -⟩
        · exact h
        · cases h
      show ∃ g, Computes (fun v out : List T => b'.gradientSlice v out d) b'.m b'.lenOrth g
      rw [sized_orth hw]
      exact Compo.gradient_any hw (nbc_of_mul h') d
    · push Not at h
      intro x out hx ho
      show b'.gradientSlice x out d = _
      unfold Compo.gradientSlice
      dsimp only
      rw [biharmonic_ub hw (nbc_of_not_mul h.1) x _ hx (by simp [sized_orth hw]), bind_err]

/-- C68: all operators of a real-to-real base on which `to_ortho` and `from_ortho` run. -/
theorem C68_r2r (k : Option CKind) (n : ℕ) (b : BaseR2r A) (hb : newR2r k n A = ok b)
    (hm : RunsMul k) (hs : RunsSolve k n) : Spec.Runs (b.toBase T) :=
  ⟨(C68_forward k n b hb).1 hs, (C68_backward k n b hb).1 hm, (C68_to_ortho k n b hb).1 hm,
    (C68_from_ortho k n b hb).1 hs⟩

/-- C68: all operators of the real-to-complex Fourier base, of every size. -/
theorem C68_r2c (n : ℕ) (b : BaseR2c A C) (hb : fourierR2c n A C = ok b) :
    (b.toBase.lenPhys = n ∧ b.toBase.lenSpec = n / 2 + 1 ∧ b.toBase.lenOrth = n / 2 + 1) ∧
    Spec.Runs b.toBase ∧ ∀ d, RunsGradient b.toBase d := by
  obtain rfl := r2c_inv hb
  exact ⟨⟨rfl, rfl, rfl⟩, ⟨R2c.forward_any n, R2c.backward_any n, zipSet_id_computes _,
    zipSet_id_computes _⟩, fun d => R2c.gradient_any n d⟩

/-- C68: all operators of the complex-to-complex Fourier base, of every size (`gradient` from `n = 1` on). -/
theorem C68_c2c (n : ℕ) (b : BaseC2c A C) (hb : fourierC2c n A C = ok b) :
    (b.toBase.lenPhys = n ∧ b.toBase.lenSpec = n ∧ b.toBase.lenOrth = n) ∧
    Spec.Runs b.toBase ∧ (1 ≤ n → ∀ d, RunsGradient b.toBase d) := by
  obtain rfl := c2c_inv hb
  exact ⟨⟨rfl, rfl, rfl⟩, ⟨C2c.forward_any n, C2c.backward_any n, zipSet_id_computes _,
    zipSet_id_computes _⟩, fun hn d => C2c.gradient_any hn d⟩

end

-- floating-point numbers are an arithmetic, and the hypotheses can be met
example : ∃ b, newR2r (some .dirichlet) 8 Float = ok b ∧ Spec.Runs (b.toBase FloatC) ∧
    ∀ d, RunsGradient (b.toBase FloatC) d := by
  obtain ⟨b, hb⟩ := (C68_new (A := Float) (some .dirichlet) 8).1 (by decide)
  exact ⟨b, hb, C68_r2r _ _ b hb (Or.inl rfl) (by show 5 ≤ 8; decide),
    fun d => (C68_gradient _ _ b hb d).1 (Or.inl (Or.inl rfl))⟩
example : ∃ b, fourierR2c 7 Float FloatC = ok b := ⟨_, rfl⟩
example : newR2r (some .biharmonicA) 7 Float = err .panic := (C68_new _ _).2 (by decide)

/-! ### arrays -/

section
variable {P S T A : Type} [Zero P] [Zero S] [Zero T] (b : Base P S T A)

theorem lanes_of {S T : Type} [Zero S] [Zero T] {f : List S → List T → Res (List T)} {l1 l2 : ℕ}
    (h : ∃ g, Computes f l1 l2 g) :
    Lanes (fun a out ax => applyAlongAxis (serialOrder out ax) f l1 l2 a out ax)
      (fun sched a out ax => parApplyAlongAxis sched f l1 l2 a out ax) f l1 l2 :=
  ⟨actsLanewise_of h, ignoresOutput_of h, scheduleIndependent_of h, rejects_of f l1 l2,
    fun s => par_rejects_of f l1 l2 s⟩

/-- C69: the array methods of every base whose slice operators run (C68: all bases of the library, in every
arithmetic). -/
theorem C69_arrays (h : Spec.Runs b) :
    Lanes b.forwardInplace b.forwardInplacePar b.forwardSlice b.lenPhys b.lenSpec ∧
    Lanes b.backwardInplace b.backwardInplacePar b.backwardSlice b.lenSpec b.lenPhys ∧
    Lanes b.toOrthoInplace b.toOrthoInplacePar b.toOrthoSlice b.lenSpec b.lenOrth ∧
    Lanes b.fromOrthoInplace b.fromOrthoInplacePar b.fromOrthoSlice b.lenOrth b.lenSpec :=
  ⟨lanes_of h.forward, lanes_of h.backward, lanes_of h.toOrtho, lanes_of h.fromOrtho⟩

/-- C69: `gradient` on arrays. -/
theorem C69_arrays_gradient {d : ℕ} (h : RunsGradient b d) :
    Lanes (fun a out ax => b.gradientInplace a out d ax)
      (fun sched a out ax => b.gradientInplacePar sched a out d ax)
      (fun x out => b.gradientSlice x out d) b.lenSpec b.lenOrth :=
  lanes_of h

end

/-! ### spaces -/

theorem divAll_ok {A T : Type} [Zero A] [ArithOn A T] (c : A) {a : Arr T} {sh : List ℕ} (ha : Good a sh) :
    ∃ r, divAll c a = ok r ∧ Good r sh := by
  choose f hf using fun x : T => ArithOn.scale_returns (A := A) x c
  have e : mapR (fun x => divR x c) a.data = ok (a.data.map f) := mapR_ok a.data (fun x _ => hf x)
  refine ⟨{ a with data := a.data.map f }, by unfold divAll; rw [e]; rfl, ?_, ha.2.1, ha.2.2⟩
  have := ha.1
  unfold Arr.WF at *
  simpa using this

section
variable {P S T A : Type} [Zero P] [Zero S] [Arith A] [ArithOn A T] (sp : Space1 P S T A)

/-- C69: `gradient` of Space1 returns an array of the documented shape, for every scale (zero, infinite or
not a number included). -/
theorem C69_space1_gradient {d0 : ℕ} (h0 : RunsGradient sp.base0 d0)
    {a : Arr T} (ha : Good a sp.shapeSpectral) (scale : Option (A)) :
    ∃ r, sp.gradient a d0 scale = ok r ∧ Good r sp.shapeSpectralOrtho := by
  obtain ⟨g0, c0⟩ := h0
  have k0 := good_mapAx g0 sp.base0.lenOrth 0 ha.2.2
  unfold Space1.gradient
  rw [show sp.base0.gradient a d0 0 = _ from alloc_good c0 ha (by decide : 0 < 1) rfl, bind_ok]
  cases scale with
  | none => exact ⟨_, rfl, k0⟩
  | some c =>
    obtain ⟨p0, e0⟩ := Arith.powi_returns c (toI32 d0)
    dsimp only
    rw [e0, bind_ok]
    exact divAll_ok _ k0

end

section
variable {P I S T A : Type} [Zero P] [Zero I] [Zero S] [Arith A] [ArithOn A T] (sp : Space2 P I S T A)

/-- C69: `gradient` of Space2 returns an array of the documented shape, for every scale (zero, infinite or
not a number included). -/
theorem C69_space2_gradient {d0 d1 : ℕ} (h0 : RunsGradient sp.base0 d0) (h1 : RunsGradient sp.base1 d1)
    {a : Arr T} (ha : Good a sp.shapeSpectral) (scale : Option (A × A)) :
    ∃ r, sp.gradient a d0 d1 scale = ok r ∧ Good r sp.shapeSpectralOrtho := by
  obtain ⟨g0, c0⟩ := h0
  obtain ⟨g1, c1⟩ := h1
  have k0 := good_mapAx g0 sp.base0.lenOrth 0 ha.2.2
  have k1 := good_mapAx g1 sp.base1.lenOrth 1 k0.2.2
  unfold Space2.gradient
  rw [show sp.base0.gradient a d0 0 = _ from alloc_good c0 ha (by decide : 0 < 2) rfl, bind_ok]
  rw [show sp.base1.gradient _ d1 1 = _ from alloc_good c1 k0 (by decide : 1 < 2) rfl, bind_ok]
  cases scale with
  | none => exact ⟨_, rfl, k1⟩
  | some c =>
    obtain ⟨p0, e0⟩ := Arith.powi_returns c.1 (toI32 d0)
    obtain ⟨p1, e1⟩ := Arith.powi_returns c.2 (toI32 d1)
    dsimp only
    rw [e0, bind_ok, e1, bind_ok]
    exact divAll_ok _ k1

end

section
variable {P I J S T A : Type} [Zero P] [Zero I] [Zero J] [Zero S] [Arith A] [ArithOn A T] (sp : Space3 P I J S T A)

/-- C69: `gradient` of Space3 returns an array of the documented shape, for every scale (zero, infinite or
not a number included).  (The last axis is treated with base 1, see C40.) -/
theorem C69_space3_gradient {d0 d1 d2 : ℕ} (h0 : RunsGradient sp.base0 d0) (h1 : RunsGradient sp.base1 d1) (h2 : RunsGradient sp.base1 d2)
    (h21 : sp.base2.lenSpec = sp.base1.lenSpec)
    {a : Arr T} (ha : Good a sp.shapeSpectral) (scale : Option (A × A × A)) :
    ∃ r, sp.gradient a d0 d1 d2 scale = ok r ∧ Good r [sp.base0.lenOrth, sp.base1.lenOrth, sp.base1.lenOrth] := by
  obtain ⟨g0, c0⟩ := h0
  obtain ⟨g1, c1⟩ := h1
  obtain ⟨g2, c2⟩ := h2
  have k0 := good_mapAx g0 sp.base0.lenOrth 0 ha.2.2
  have k1 := good_mapAx g1 sp.base1.lenOrth 1 k0.2.2
  have k2 := good_mapAx g2 sp.base1.lenOrth 2 k1.2.2
  unfold Space3.gradient
  rw [show sp.base0.gradient a d0 0 = _ from alloc_good c0 ha (by decide : 0 < 3) rfl, bind_ok]
  rw [show sp.base1.gradient _ d1 1 = _ from alloc_good c1 k0 (by decide : 1 < 3) rfl, bind_ok]
  rw [show sp.base1.gradient _ d2 2 = _ from alloc_good c2 k1 (by decide : 2 < 3) h21, bind_ok]
  cases scale with
  | none => exact ⟨_, rfl, k2⟩
  | some c =>
    obtain ⟨p0, e0⟩ := Arith.powi_returns c.1 (toI32 d0)
    obtain ⟨p1, e1⟩ := Arith.powi_returns c.2.1 (toI32 d1)
    obtain ⟨p2, e2⟩ := Arith.powi_returns c.2.2 (toI32 d2)
    dsimp only
    rw [e0, bind_ok, e1, bind_ok, e2, bind_ok]
    exact divAll_ok _ k2

end

end Verif.Props
