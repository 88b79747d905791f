/-
The slice operators of the base enums.
-/
import Verif.Proof.LinOps
import Verif.Proof.Lanes
import Verif.Spec.Space

namespace Verif
open Res Spec

section
variable {A C : Type} [Zero A] [One A] [Neg A] [Add A] [Sub A] [Mul A] [Div A] [NatCast A] [Pow A ℕ] [DivBy A A]

theorem chebyshev_inv {n : ℕ} {b : BaseR2r A} (h : newR2r none n A = ok b) :
    2 ≤ n ∧ b = .chebyshev ⟨n, n⟩ := by
  change chebyshev n A = ok b at h
  unfold chebyshev Cheb.new assertR at h
  by_cases hn : n > 1
  · rw [if_pos hn] at h
    simp only [bind_ok, pure_eq, Res.ok.injEq] at h
    exact ⟨hn, h.symm⟩
  · rw [if_neg hn] at h; simp at h

theorem composite_inv {k : CKind} {n : ℕ} {b : BaseR2r A} (h : newR2r (some k) n A = ok b) :
    ∃ c, Compo.new k n = ok c ∧ b = .chebyshevComposite c := by
  change chebComposite k n A = ok b at h
  unfold chebComposite at h
  cases hc : Compo.new (K := A) k n with
  | err e => rw [hc] at h; simp at h
  | ok c =>
    rw [hc] at h
    simp only [bind_ok, pure_eq, Res.ok.injEq] at h
    exact ⟨c, rfl, h.symm⟩

omit [Zero A] [One A] [Neg A] [Add A] [Sub A] [Mul A] [Div A] [NatCast A] [Pow A ℕ] [DivBy A A] in
theorem c2c_inv {n : ℕ} {b : BaseC2c A C} (h : fourierC2c n A C = ok b) : b = .fourierC2c ⟨n, n⟩ := by
  unfold fourierC2c C2c.new at h
  simpa using h.symm

omit [Zero A] [One A] [Neg A] [Add A] [Sub A] [Mul A] [Div A] [NatCast A] [Pow A ℕ] [DivBy A A] in
theorem r2c_inv {n : ℕ} {b : BaseR2c A C} (h : fourierR2c n A C = ok b) :
    b = .fourierR2c ⟨n, n / 2 + 1⟩ := by
  unfold fourierR2c R2c.new at h
  simpa using h.symm

end

theorem identity_slice {T : Type} (x out : List T) (h : x.length = out.length) :
    (pure (zipSet id x out) : Res (List T)) = ok x := by rw [zipSet_id_ok _ _ h]; rfl

section
variable {R T : Type} [CommRing R] [AddCommGroup T] [Module ℝ T] [Module R T] [SMulCommClass ℝ R T]
variable {k : Option CKind} {n : ℕ} {b : BaseR2r}

omit [Module ℝ T] [SMulCommClass ℝ R T] in
theorem linOp_zipSet {f : List T → List T → Res (List T)} (h : ∀ x out, f x out = pure (zipSet id x out))
    (n : ℕ) : LinOp R f n n :=
  linOp_id (fun x out hx ho => by rw [h, identity_slice x out (by omega)])

theorem r2r_forward_lin (hb : newR2r k n = ok b) (hs : RunsSolve k n) :
    LinOp ℝ (b.toBase T).forwardSlice (b.toBase T).lenPhys (b.toBase T).lenSpec := by
  cases k with
  | none => obtain ⟨hn, rfl⟩ := chebyshev_inv hb; exact cheb_forward_lin hn
  | some k => obtain ⟨c, hc, rfl⟩ := composite_inv hb; exact compo_forward_lin hc hs

theorem r2r_backward_lin (hb : newR2r k n = ok b) (hm : RunsMul k) :
    LinOp ℝ (b.toBase T).backwardSlice (b.toBase T).lenSpec (b.toBase T).lenPhys := by
  cases k with
  | none => obtain ⟨hn, rfl⟩ := chebyshev_inv hb; exact cheb_backward_lin hn
  | some k => obtain ⟨c, hc, rfl⟩ := composite_inv hb; exact compo_backward_lin hm hc

theorem r2r_toOrtho_lin (hb : newR2r k n = ok b) (hm : RunsMul k) :
    LinOp R (b.toBase T).toOrthoSlice (b.toBase T).lenSpec (b.toBase T).lenOrth := by
  cases k with
  | none =>
    obtain ⟨hn, rfl⟩ := chebyshev_inv hb
    exact linOp_zipSet (fun _ _ => rfl) n
  | some k => obtain ⟨c, hc, rfl⟩ := composite_inv hb; exact compo_toOrtho_lin hm hc

theorem r2r_fromOrtho_lin (hb : newR2r k n = ok b) (hs : RunsSolve k n) :
    LinOp R (b.toBase T).fromOrthoSlice (b.toBase T).lenOrth (b.toBase T).lenSpec := by
  cases k with
  | none =>
    obtain ⟨hn, rfl⟩ := chebyshev_inv hb
    exact linOp_zipSet (fun _ _ => rfl) n
  | some k => obtain ⟨c, hc, rfl⟩ := composite_inv hb; exact compo_fromOrtho_lin hc hs

theorem r2r_gradient_lin (hb : newR2r k n = ok b) (hg : RunsGrad k n) (d : ℕ) :
    LinOp R (fun x out => (b.toBase T).gradientSlice x out d) (b.toBase T).lenSpec
      (b.toBase T).lenOrth := by
  cases k with
  | none => obtain ⟨hn, rfl⟩ := chebyshev_inv hb; exact cheb_gradient_lin hg d
  | some k => obtain ⟨c, hc, rfl⟩ := composite_inv hb; exact compo_gradient_lin hg hc d

end

/-! ### round trips -/

theorem LinOp.computes {R S T : Type} [CommRing R] [AddCommGroup S] [Module R S] [AddCommGroup T]
    [Module R T] {f : List S → List T → Res (List T)} {n m : ℕ} (h : LinOp R f n m) :
    ∃ g, Computes f n m g := h.imp fun _ h => h.1

theorem roundtrip_of {S T : Type} [Zero S] [Zero T] {f : List S → List T → Res (List T)}
    {f' : List T → List S → Res (List S)} {n m : ℕ} {g : List S → List T} {g' : List T → List S}
    (hg : Computes f n m g) (hg' : Computes f' m n g') {v : List T} (hv : v.length = m)
    (h : ∃ w, f' v (List.replicate n 0) = ok w ∧ f w (List.replicate m 0) = ok v) :
    g (g' v) = v := by
  obtain ⟨w, h1, h2⟩ := h
  have k1 := hg' v (List.replicate n 0) hv (by simp)
  obtain rfl : w = g' v := by
    have := h1.symm.trans k1.1
    simpa using this
  have k2 := hg (g' v) (List.replicate m 0) k1.2 (by simp)
  have := k2.1.symm.trans h2
  simpa using this

section
variable {T : Type} [AddCommGroup T] [Module ℝ T] {k : Option CKind} {n : ℕ} {b : BaseR2r}

theorem r2r_fwdBwd (hb : newR2r k n = ok b) (hm : RunsMul k) (hs : RunsSolve k n) :
    FwdBwd (b.toBase T) := by
  obtain ⟨φ, hφ⟩ := LinOp.computes (r2r_forward_lin (T := T) hb hs)
  obtain ⟨β, hβ⟩ := LinOp.computes (r2r_backward_lin (T := T) hb hm)
  refine ⟨φ, β, hφ, hβ, fun v hv => roundtrip_of hφ hβ hv ?_⟩
  cases k with
  | none =>
    obtain ⟨hn, rfl⟩ := chebyshev_inv hb
    exact Props.C03_forward_backward n ⟨n, n⟩ (cheb_new_ok hn) v _ _ hv
      (List.length_replicate ..) (List.length_replicate ..)
  | some k =>
    obtain ⟨c, hc, rfl⟩ := composite_inv hb
    exact Props.C21_forward_backward k hm n c hc hs v _ _ hv
      (List.length_replicate ..) (List.length_replicate ..)

theorem cheb_bwdFwd (hb : newR2r none n = ok b) : BwdFwd (b.toBase T) := by
  obtain ⟨φ, hφ⟩ := LinOp.computes (r2r_forward_lin (T := T) hb trivial)
  obtain ⟨β, hβ⟩ := LinOp.computes (r2r_backward_lin (T := T) hb trivial)
  refine ⟨φ, β, hφ, hβ, fun v hv => roundtrip_of hβ hφ hv ?_⟩
  obtain ⟨hn, rfl⟩ := chebyshev_inv hb
  exact Props.C03_backward_forward n ⟨n, n⟩ (cheb_new_ok hn) v _ _ hv
    (List.length_replicate ..) (List.length_replicate ..)

theorem r2r_fromTo (hb : newR2r k n = ok b) (hm : RunsMul k) (hs : RunsSolve k n) :
    FromTo (b.toBase T) := by
  obtain ⟨φ, hφ⟩ := LinOp.computes (r2r_fromOrtho_lin (R := ℝ) (T := T) hb hs)
  obtain ⟨τ, hτ⟩ := LinOp.computes (r2r_toOrtho_lin (R := ℝ) (T := T) hb hm)
  refine ⟨φ, τ, hφ, hτ, fun v hv => roundtrip_of hφ hτ hv ?_⟩
  cases k with
  | none =>
    obtain ⟨hn, rfl⟩ := chebyshev_inv hb
    exact ⟨v, identity_slice v _ (by rw [List.length_replicate]; exact hv),
      identity_slice v _ (by rw [List.length_replicate]; exact hv)⟩
  | some k =>
    obtain ⟨c, hc, rfl⟩ := composite_inv hb
    exact Props.C13_round_trip k hm n c hc hs v _ _ hv
      (List.length_replicate ..) (List.length_replicate ..)

end

section
variable {n : ℕ}

theorem c2c_laws {b : BaseC2c} (hn : 1 ≤ n) (hb : fourierC2c n = ok b) :
    (LinOp ℂ b.toBase.forwardSlice b.toBase.lenPhys b.toBase.lenSpec ∧
      LinOp ℂ b.toBase.backwardSlice b.toBase.lenSpec b.toBase.lenPhys ∧
      LinOp ℂ b.toBase.toOrthoSlice b.toBase.lenSpec b.toBase.lenOrth ∧
      LinOp ℂ b.toBase.fromOrthoSlice b.toBase.lenOrth b.toBase.lenSpec ∧
      ∀ d, LinOp ℂ (fun x out => b.toBase.gradientSlice x out d) b.toBase.lenSpec
        b.toBase.lenOrth) ∧
    FwdBwd b.toBase ∧ BwdFwd b.toBase ∧ FromTo b.toBase := by
  obtain rfl := c2c_inv hb
  have h1 := c2c_forward_lin n
  have h2 := c2c_backward_lin n hn
  have h3 : LinOp ℂ (C2c.toOrthoSlice (T := ℂ) ⟨n, n⟩) n n := linOp_zipSet (fun _ _ => rfl) n
  have h4 : LinOp ℂ (C2c.fromOrthoSlice (T := ℂ) ⟨n, n⟩) n n := linOp_zipSet (fun _ _ => rfl) n
  refine ⟨⟨h1, h2, h3, h4, fun d => c2c_gradient_lin n hn d⟩, ?_, ?_, ?_⟩
  · obtain ⟨φ, hφ⟩ := LinOp.computes h1
    obtain ⟨β, hβ⟩ := LinOp.computes h2
    refine ⟨φ, β, hφ, hβ, fun v hv => roundtrip_of hφ hβ hv ?_⟩
    obtain ⟨w, e1, -, e2⟩ := Props.C24_forward_backward n hn ⟨n, n⟩ rfl v (List.replicate n 0)
      (List.replicate n 0) hv (List.length_replicate ..) (List.length_replicate ..)
    exact ⟨w, e1, e2⟩
  · obtain ⟨φ, hφ⟩ := LinOp.computes h1
    obtain ⟨β, hβ⟩ := LinOp.computes h2
    refine ⟨φ, β, hφ, hβ, fun v hv => roundtrip_of hβ hφ hv ?_⟩
    obtain ⟨w, e1, -, e2⟩ := Props.C24_backward_forward n hn ⟨n, n⟩ rfl v (List.replicate n 0)
      (List.replicate n 0) hv (List.length_replicate ..) (List.length_replicate ..)
    exact ⟨w, e1, e2⟩
  · obtain ⟨φ, hφ⟩ := LinOp.computes h4
    obtain ⟨β, hβ⟩ := LinOp.computes h3
    refine ⟨φ, β, hφ, hβ, fun v hv => roundtrip_of hφ hβ hv ?_⟩
    exact ⟨v, identity_slice v _ (by rw [List.length_replicate]; exact hv),
      identity_slice v _ (by rw [List.length_replicate]; exact hv)⟩

theorem r2c_laws {b : BaseR2c} (hn : 1 ≤ n) (hb : fourierR2c n = ok b) :
    (LinOp ℝ b.toBase.forwardSlice b.toBase.lenPhys b.toBase.lenSpec ∧
      LinOp ℝ b.toBase.backwardSlice b.toBase.lenSpec b.toBase.lenPhys ∧
      LinOp ℂ b.toBase.toOrthoSlice b.toBase.lenSpec b.toBase.lenOrth ∧
      LinOp ℂ b.toBase.fromOrthoSlice b.toBase.lenOrth b.toBase.lenSpec ∧
      ∀ d, LinOp ℂ (fun x out => b.toBase.gradientSlice x out d) b.toBase.lenSpec
        b.toBase.lenOrth) ∧
    BwdFwd b.toBase ∧ FromTo b.toBase := by
  obtain rfl := r2c_inv hb
  have h1 := r2c_forward_lin n
  have h2 := r2c_backward_lin n hn
  have h3 : LinOp ℂ (R2c.toOrthoSlice (T := ℂ) ⟨n, n / 2 + 1⟩) (n / 2 + 1) (n / 2 + 1) :=
    linOp_zipSet (fun _ _ => rfl) _
  have h4 : LinOp ℂ (R2c.fromOrthoSlice (T := ℂ) ⟨n, n / 2 + 1⟩) (n / 2 + 1) (n / 2 + 1) :=
    linOp_zipSet (fun _ _ => rfl) _
  refine ⟨⟨h1, h2, h3, h4, fun d => r2c_gradient_lin ⟨n, n / 2 + 1⟩ d⟩, ?_, ?_⟩
  · obtain ⟨φ, hφ⟩ := LinOp.computes h1
    obtain ⟨β, hβ⟩ := LinOp.computes h2
    refine ⟨φ, β, hφ, hβ, fun v hv => roundtrip_of hβ hφ hv ?_⟩
    obtain ⟨w, e1, -, e2⟩ := Props.C28_backward_forward n hn ⟨n, n / 2 + 1⟩ rfl v
      (List.replicate n 0) (List.replicate _ 0) hv (List.length_replicate ..)
      (List.length_replicate ..)
    exact ⟨w, e1, e2⟩
  · obtain ⟨φ, hφ⟩ := LinOp.computes h4
    obtain ⟨β, hβ⟩ := LinOp.computes h3
    refine ⟨φ, β, hφ, hβ, fun v hv => roundtrip_of hφ hβ hv ?_⟩
    exact ⟨v, identity_slice v _ (by rw [List.length_replicate]; exact hv),
      identity_slice v _ (by rw [List.length_replicate]; exact hv)⟩

end
end Verif
