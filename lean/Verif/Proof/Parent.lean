/-
Operators given by a real matrix commute with linear operators along other axes; the coefficient operators of
the bases are given by real matrices.
-/
import Verif.Proof.Spaces
import Verif.Proof.SpaceGrad
import Verif.Proof.SpaceLaws
import Verif.Props.Parts
import Verif.Props.SpaceInst

namespace Verif
open Res Spec Finset

section
variable {S T : Type} [AddCommGroup S] [Module ℝ S] [AddCommGroup T] [Module ℝ T]

/-- multiplication by the real matrix `Q` with `m` rows and `n` columns -/
noncomputable def matL (m n : ℕ) (Q : ℕ → ℕ → ℝ) (x : List T) : List T :=
  (List.range m).map fun i => ∑ l ∈ range n, Q i l • nth x l

@[simp] theorem matL_length (m n : ℕ) (Q : ℕ → ℕ → ℝ) (x : List T) : (matL m n Q x).length = m := by
  simp [matL]

theorem nth_matL {m n : ℕ} (Q : ℕ → ℕ → ℝ) (x : List T) {i : ℕ} (hi : i < m) :
    nth (matL m n Q x) i = ∑ l ∈ range n, Q i l • nth x l := by
  rw [matL, nth_map_range _ _ _ hi]

/-- a linear function of a combination of `N` vectors -/
theorem linear_combo {n m : ℕ} {g : List S → List T} (hg : IsLinear ℝ n g)
    (hl : ∀ y, y.length = n → (g y).length = m) (c : ℕ → ℝ) (xs : ℕ → List S) {i : ℕ} (hi : i < m) (N : ℕ)
    (hx : ∀ j < N, (xs j).length = n) :
    nth (g ((List.range n).map fun p => ∑ j ∈ range N, c j • nth (xs j) p)) i
      = ∑ j ∈ range N, c j • nth (g (xs j)) i := by
  induction N with
  | zero =>
    have e : ((List.range n).map fun p => ∑ j ∈ range 0, c j • nth (xs j) p) = List.replicate n (0 : S) := by
      simp [List.map_const']
    rw [e, linear_zero hg (x := List.replicate n 0) (by simp) (by rw [hl _ (by simp)]; exact hi)
      (fun y hy => by rw [hl y hy, hl _ (by simp)])]
    simp
  | succ N ih =>
    have e : ((List.range n).map fun p => ∑ j ∈ range (N + 1), c j • nth (xs j) p)
        = linComb ℝ 1 (c N) ((List.range n).map fun p => ∑ j ∈ range N, c j • nth (xs j) p) (xs N) := by
      refine ext_nth (by simp [linComb]) (fun p hp => ?_)
      have hp' : p < n := by simpa using hp
      rw [linComb, nth_map_range _ _ _ hp', nth_map_range _ _ _ (by simpa using hp'),
        nth_map_range _ _ _ hp', Finset.sum_range_succ, one_smul]
    rw [e, hg _ _ _ _ (by simp) (hx N (by omega)), linComb,
      nth_map_range _ _ _ (by rw [hl _ (by simp)]; exact hi), ih (fun j hj => hx j (by omega)),
      Finset.sum_range_succ, one_smul]

/-- a real matrix along one axis commutes with a linear operator along another one -/
theorem mapAx_matL_comm {n m n' m' ax ax' : ℕ} (hne : ax ≠ ax') {g : List S → List T} (hg : IsLinear ℝ n g)
    (hgl : ∀ y, y.length = n → (g y).length = m) (Q : ℕ → ℕ → ℝ) {a : Arr S} (hax : ax < a.shape.length)
    (hax' : ax' < a.shape.length) (hn : a.shape.getD ax 0 = n) (hn' : a.shape.getD ax' 0 = n') :
    mapAx (matL m' n' Q) m' ax' (mapAx g m ax a) = mapAx g m ax (mapAx (matL m' n' Q) m' ax' a) := by
  have sh : (mapAx g m ax (mapAx (matL m' n' Q) m' ax' a)).shape = (a.shape.set ax m).set ax' m' := by
    rw [mapAx_shape, mapAx_shape, List.set_comm _ _ hne]
  refine arr_ext (by rw [sh, mapAx_shape, mapAx_shape]) rfl (mapAx_wf ..) (mapAx_wf ..) (fun idx hidx => ?_)
  rw [mapAx_shape, mapAx_shape] at hidx
  have hk : idx.getD ax' 0 < m' := by
    have := hidx.get (ax := ax') (by simpa using hax')
    rwa [getD_set_self _ _ (by simpa using hax')] at this
  have hi : idx.getD ax 0 < m := by
    have := hidx.get (ax := ax) (by simpa using hax)
    rwa [getD_set_ne _ hne.symm, getD_set_self _ _ hax] at this
  have en' : (mapAx g m ax a).shape.getD ax' 0 = n' := by rw [mapAx_shape, getD_set_ne _ hne, hn']
  rw [at_mapAx (mapAx_shape ..) hidx, nth_matL _ _ hk,
    at_mapAx (mapAx_shape ..) (by rw [← List.set_comm _ _ hne]; exact hidx)]
  have e1 : ∀ l < n', nth (laneAt (mapAx g m ax a) ax' idx) l
      = nth (g (laneAt a ax (idx.set ax' l))) (idx.getD ax 0) := fun l hl => by
    rw [nth_laneAt _ _ _ (by rw [en']; exact hl)]
    have hb : InBounds (a.shape.set ax m) (idx.set ax' l) := by
      have := hidx.set ax' hl
      rw [List.set_set] at this
      have e : (a.shape.set ax m).set ax' n' = a.shape.set ax m := by
        rw [← hn', ← getD_set_ne a.shape hne m, set_getD_self]
      rwa [e] at this
    rw [at_mapAx rfl hb, getD_set_ne _ hne.symm]
  rw [Finset.sum_congr rfl (fun l hl => by rw [e1 l (mem_range.mp hl)])]
  have en : (mapAx (matL m' n' Q) m' ax' a).shape.getD ax 0 = n := by
    rw [mapAx_shape, getD_set_ne _ hne.symm, hn]
  have e2 : laneAt (mapAx (matL m' n' Q) m' ax' a) ax idx
      = (List.range n).map fun p => ∑ l ∈ range n', Q (idx.getD ax' 0) l • nth (laneAt a ax (idx.set ax' l)) p := by
    refine ext_nth (by rw [laneAt_length, en]; simp) (fun p hp => ?_)
    rw [laneAt_length, en] at hp
    rw [nth_laneAt _ _ _ (by rw [en]; exact hp), nth_map_range _ _ _ hp]
    have hb : InBounds (a.shape.set ax' m') (idx.set ax p) := by
      have := hidx.set ax hp
      rw [List.set_comm _ _ hne.symm, List.set_set] at this
      have e : (a.shape.set ax n).set ax' m' = a.shape.set ax' m' := by rw [← hn, set_getD_self]
      rwa [e] at this
    rw [at_mapAx rfl hb, getD_set_ne _ hne, nth_matL _ _ hk]
    refine Finset.sum_congr rfl (fun l hl => ?_)
    rw [nth_laneAt _ _ _ (by rw [hn']; exact mem_range.mp hl), nth_laneAt _ _ _ (by rw [hn]; exact hp),
      List.set_comm _ _ hne]
  rw [e2, linear_combo hg hgl _ _ hi n' (fun j _ => by rw [laneAt_length, hn])]

/-- composition along an axis -/
theorem mapAx_comp {U : Type} [Zero U] {g : List S → List T} {g' : List T → List U} {n m m' ax : ℕ} {a : Arr S}
    (hax : ax < a.shape.length) (hn : a.shape.getD ax 0 = n) (hg : ∀ x, x.length = n → (g x).length = m) :
    mapAx g' m' ax (mapAx g m ax a) = mapAx (g' ∘ g) m' ax a :=
  mapsLanes_iff.mp (maps_comp (mapAx_spec ..) (mapAx_spec ..) hax hn hg)

/-- equal functions on lanes -/
theorem mapAx_congr {g g' : List S → List T} {n m ax : ℕ} {a : Arr S} (hn : a.shape.getD ax 0 = n)
    (h : ∀ x, x.length = n → g x = g' x) : mapAx g m ax a = mapAx g' m ax a := by
  refine arr_ext (by simp) rfl (mapAx_wf ..) (mapAx_wf ..) (fun idx hidx => ?_)
  rw [mapAx_shape] at hidx
  rw [at_mapAx rfl hidx, at_mapAx rfl hidx, h _ (by rw [laneAt_length, hn])]

theorem matL_linear {R : Type} [CommRing R] [Module R T] [SMulCommClass ℝ R T] (m n : ℕ) (Q : ℕ → ℕ → ℝ) :
    IsLinear R n (matL m n Q : List T → List T) := by
  intro α β x y hx hy
  refine ext_nth (by simp [linComb]) (fun i hi => ?_)
  have hi' : i < m := by simpa using hi
  have e : ∀ (u v : List T) (p : ℕ), p < u.length → nth (linComb R α β u v) p = α • nth u p + β • nth v p :=
    fun u v p hp => nth_map_range _ _ _ hp
  rw [nth_matL _ _ hi', e _ _ _ (by simpa using hi'), nth_matL _ _ hi', nth_matL _ _ hi',
    Finset.smul_sum, Finset.smul_sum, ← Finset.sum_add_distrib]
  refine Finset.sum_congr rfl (fun l hl => ?_)
  rw [e _ _ _ (by rw [hx]; exact mem_range.mp hl), smul_add, smul_comm, smul_comm (Q i l) β]

end

/-! ### bases -/

section
variable {T : Type} [AddCommGroup T] [Module ℝ T]

/-- products of a number and a fixed datum -/
theorem respects_smul (t : T) : Respects ℝ (fun r : ℝ => r • t) where
  zero := zero_smul _ _
  add x y := add_smul _ _ _
  sub x y := sub_smul _ _ _
  smul k x := by rw [smul_eq_mul, mul_smul]
  div x k := by
    rw [divR_eq, divR_eq]
    split
    · rfl
    · simp [onResult, mul_smul]

/-- An operator that respects products with a datum, in the numbers and in the data, is given by the same real
matrix. -/
theorem real_matrix {n m : ℕ} {f : List ℝ → List ℝ → Res (List ℝ)} {fT : List T → List T → Res (List T)}
    {g : List ℝ → List ℝ} (hf : Computes f n m g) (hfT : LinOp ℝ fT n m)
    (hn : ∀ (t : T) x y, fT (x.map fun r : ℝ => r • t) (y.map fun r : ℝ => r • t)
      = onResult (List.map fun r : ℝ => r • t) (f x y)) :
    Computes fT n m (matL m n fun i l => nth (g (unitVec ℝ n l)) i) := by
  obtain ⟨gT, cT, lT⟩ := hfT
  have hu : ∀ l, (unitVec ℝ n l).length = n := fun l => by simp [unitVec]
  have e : ∀ l (t : T), gT ((unitVec ℝ n l).map fun r : ℝ => r • t) = (g (unitVec ℝ n l)).map fun r : ℝ => r • t := by
    intro l t
    have h1 := (cT ((unitVec ℝ n l).map fun r : ℝ => r • t) ((List.replicate m (0 : ℝ)).map fun r : ℝ => r • t)
      (by simp [hu]) (by simp)).1
    rw [hn, (hf (unitVec ℝ n l) (List.replicate m 0) (hu l) (by simp)).1] at h1
    exact (Res.ok.inj h1).symm
  have key : ∀ x : List T, x.length = n → gT x = matL m n (fun i l => nth (g (unitVec ℝ n l)) i) x := by
    intro x hx
    refine ext_nth (by rw [cT.len x hx, matL_length]) (fun i hi => ?_)
    rw [cT.len x hx] at hi
    rw [nth_matL _ _ hi]
    have ex : x = (List.range n).map fun p => ∑ j ∈ range n,
        (1 : ℝ) • nth ((unitVec ℝ n j).map fun r : ℝ => r • nth x j) p := by
      refine ext_nth (by simp [hx]) (fun p hp => ?_)
      rw [hx] at hp
      rw [nth_map_range _ _ _ hp, Finset.sum_eq_single p]
      · rw [nth_map _ _ _ (by rw [hu]; exact hp), unitVec, nth_map_range _ _ _ hp]; simp
      · intro j _ hj
        rw [nth_map _ _ _ (by rw [hu]; exact hp), unitVec, nth_map_range _ _ _ hp, if_neg (Ne.symm hj)]; simp
      · intro h; exact absurd (mem_range.mpr hp) h
    conv_lhs => rw [ex]
    rw [linear_combo lT cT.len (fun _ => 1) _ hi n (fun j _ => by simp [hu])]
    refine Finset.sum_congr rfl (fun j _ => ?_)
    rw [e, nth_map _ _ _ (by rw [hf.len _ (hu j)]; exact hi), one_smul]
  intro x out hx ho
  rw [← key x hx]
  exact cT x out hx ho

end


/-- `b'` is the orthogonal base over which `b` is built: the transforms and the expansion of `b` are those of
`b'`, up to real matrices. -/
structure Parent {P S T : Type} [AddCommGroup P] [Module ℝ P] [AddCommGroup S] [Module ℝ S] [AddCommGroup T]
    [Module ℝ T] (b b' : Base P S T) : Prop where
  phys : b'.lenPhys = b.lenPhys
  spec : b'.lenSpec = b.lenOrth
  orth : b'.lenOrth = b.lenOrth
  fwd : ∃ Q, Computes b.fromOrthoSlice b.lenOrth b.lenSpec (matL b.lenSpec b.lenOrth Q) ∧
    ∃ φ, Computes b'.forwardSlice b.lenPhys b.lenOrth φ ∧ IsLinear ℝ b.lenPhys φ ∧
      Computes b.forwardSlice b.lenPhys b.lenSpec (matL b.lenSpec b.lenOrth Q ∘ φ)
  bwd : ∃ E, Computes b.toOrthoSlice b.lenSpec b.lenOrth (matL b.lenOrth b.lenSpec E) ∧
    ∃ β, Computes b'.backwardSlice b.lenOrth b.lenPhys β ∧ IsLinear ℝ b.lenOrth β ∧
      Computes b.backwardSlice b.lenSpec b.lenPhys (β ∘ matL b.lenOrth b.lenSpec E)

/-- The gradient of `b` is the gradient of `b'` after the expansion; gradients of `b'` compose. -/
def GradParent {P S T : Type} [CommRing T] [Algebra ℝ T] (b b' : Base P S T) : Prop :=
  b'.lenSpec = b.lenOrth ∧ b'.lenOrth = b.lenOrth ∧
  ∃ E, Computes b.toOrthoSlice b.lenSpec b.lenOrth (matL b.lenOrth b.lenSpec E) ∧
    ∃ g : ℕ → List T → List T,
      (∀ d, Computes (fun v out => b'.gradientSlice v out d) b.lenOrth b.lenOrth (g d) ∧
        IsLinear T b.lenOrth (g d) ∧
        Computes (fun v out => b.gradientSlice v out d) b.lenSpec b.lenOrth (g d ∘ matL b.lenOrth b.lenSpec E)) ∧
      ∀ d e v, v.length = b.lenOrth → g e (g d v) = g (d + e) v

section
variable {T : Type} [AddCommGroup T] [Module ℝ T]

/-- the identity as a matrix -/
theorem matL_id {n : ℕ} (x : List T) (hx : x.length = n) : matL n n (fun i l => if l = i then 1 else 0) x = x := by
  refine ext_nth (by simp [hx]) (fun i hi => ?_)
  rw [matL_length] at hi
  rw [nth_matL _ _ hi, Finset.sum_eq_single i]
  · simp
  · intro l _ hl; rw [if_neg hl, zero_smul]
  · intro h; exact absurd (mem_range.mpr hi) h

theorem computes_matL_id {f : List T → List T → Res (List T)} {n : ℕ}
    (h : ∀ x out, f x out = pure (zipSet id x out)) :
    Computes f n n (matL n n fun i l => if l = i then 1 else 0) := fun x out hx ho => by
  rw [matL_id x hx, h, identity_slice x out (by omega)]
  exact ⟨rfl, hx⟩

theorem Spec.Computes.congr {S T : Type} {f : List S → List T → Res (List T)} {n m : ℕ} {g g' : List S → List T}
    (h : Computes f n m g) (e : ∀ x, x.length = n → g x = g' x) : Computes f n m g' := fun x out hx ho => by
  rw [← e x hx]; exact h x out hx ho

/-- orthogonal bases are their own parents -/
theorem parent_self {P S T : Type} [AddCommGroup P] [Module ℝ P] [AddCommGroup S] [Module ℝ S] [AddCommGroup T]
    [Module ℝ T] {b : Base P S T} (ho : b.lenOrth = b.lenSpec)
    (ht : ∀ x out, b.toOrthoSlice x out = pure (zipSet id x out))
    (hf : ∀ x out, b.fromOrthoSlice x out = pure (zipSet id x out))
    (hφ : LinOp ℝ b.forwardSlice b.lenPhys b.lenSpec) (hβ : LinOp ℝ b.backwardSlice b.lenSpec b.lenPhys) :
    Parent b b := by
  obtain ⟨φ, cφ, lφ⟩ := hφ
  obtain ⟨β, cβ, lβ⟩ := hβ
  refine ⟨rfl, ho.symm, rfl, ⟨fun i l => if l = i then 1 else 0, ?_, φ, ?_, lφ, ?_⟩,
    fun i l => if l = i then 1 else 0, ?_, β, ?_, ?_, ?_⟩
  · rw [ho]; exact computes_matL_id hf
  · rw [ho]; exact cφ
  · rw [ho]
    exact cφ.congr fun x hx => (matL_id _ (cφ.len x hx)).symm
  · rw [ho]; exact computes_matL_id ht
  · rw [ho]; exact cβ
  · rw [ho]; exact lβ
  · rw [ho]
    exact cβ.congr fun x hx => by rw [Function.comp_apply, matL_id x hx]

end


section
variable {T : Type} [AddCommGroup T] [Module ℝ T] {k : Option CKind} {n : ℕ} {b b' : BaseR2r}

theorem r2r_parent (hb : newR2r k n = ok b) (hm : RunsMul k) (hs : RunsSolve k n) (hb' : chebyshev n = ok b') :
    Parent (b.toBase T) (b'.toBase T) := by
  cases k with
  | none =>
    obtain rfl : b = b' := Res.ok.inj (hb.symm.trans hb')
    obtain ⟨hn, rfl⟩ := chebyshev_inv hb
    exact parent_self rfl (fun _ _ => rfl) (fun _ _ => rfl) (r2r_forward_lin hb trivial) (r2r_backward_lin hb trivial)
  | some k =>
    obtain ⟨s1, s2, s3⟩ := Props.C41_sizes_r2r (T := T) _ n b hb
    obtain ⟨t1, t2, t3⟩ := Props.C41_sizes_r2r (T := ℝ) _ n b hb
    have lψ := r2r_fromOrtho_lin (R := ℝ) (T := ℝ) hb hs
    have lτ := r2r_toOrtho_lin (R := ℝ) (T := ℝ) hb hm
    have lψT := r2r_fromOrtho_lin (R := ℝ) (T := T) hb hs
    have lτT := r2r_toOrtho_lin (R := ℝ) (T := T) hb hm
    rw [t2, t3] at lψ lτ
    rw [s2, s3] at lψT lτT
    obtain ⟨ψ, cψ⟩ := LinOp.computes lψ
    obtain ⟨τ, cτ⟩ := LinOp.computes lτ
    have qT := real_matrix cψ lψT (fun t x y => (Props.C95_slices (respects_smul t) b x y 0).2.1)
    have qR := real_matrix cψ lψ (fun t x y => (Props.C95_slices (respects_smul t) b x y 0).2.1)
    have eT := real_matrix cτ lτT (fun t x y => (Props.C95_slices (respects_smul t) b x y 0).1)
    have eR := real_matrix cτ lτ (fun t x y => (Props.C95_slices (respects_smul t) b x y 0).1)
    generalize (fun i l => nth (ψ (unitVec ℝ n l)) i) = Q at qT qR
    generalize (fun i l => nth (τ (unitVec ℝ _ l)) i) = E at eT eR
    rw [← s3, ← s2] at qT eT
    rw [← t3, ← t2] at qR eR
    obtain ⟨φ, cφ, lφ⟩ := r2r_forward_lin (T := T) (show newR2r none n = ok b' from hb') trivial
    obtain ⟨β, cβ, lβ⟩ := r2r_backward_lin (T := T) (show newR2r none n = ok b' from hb') trivial
    obtain ⟨hn, rfl⟩ := chebyshev_inv (show newR2r none n = ok b' from hb')
    obtain ⟨c, hc, rfl⟩ := composite_inv hb
    have hw := Compo.wf_of_new hc
    have ho : c.lenOrth = n := s2
    have hp : c.lenPhys = n := s1
    refine ⟨s1.symm, s2.symm, s2.symm, ⟨_, qT, φ, ?_, ?_, ?_⟩, _, eT, β, ?_, ?_, ?_⟩
    · rw [s1, s2]; exact cφ
    · rw [s1]; exact lφ
    · intro x out hx hout
      have hx' : x.length = n := hx.trans s1
      have h1 := cφ x (List.replicate c.lenOrth 0) hx' (by rw [List.length_replicate, ho]; rfl)
      have h2 := qR (φ x) out (h1.2.trans ho.symm) hout
      refine ⟨?_, h2.2⟩
      show Compo.forwardSlice c x out = _
      unfold Compo.forwardSlice
      dsimp only
      rw [hw.ortho]
      refine (congrArg (· >>= fun scratch => c.fromOrthoSlice scratch out) h1.1).trans ?_
      exact h2.1
    · rw [s1, s2]; exact cβ
    · rw [s2]; exact lβ
    · intro x out hx hout
      have h2 := eR x (List.replicate c.lenOrth 0) hx (List.length_replicate ..)
      have h1 := cβ _ out (h2.2.trans ho) (hout.trans s1)
      refine ⟨?_, h1.2.trans s1.symm⟩
      show Compo.backwardSlice c x out = _
      unfold Compo.backwardSlice
      dsimp only
      refine (congrArg (· >>= fun scratch => c.ortho.backwardSlice scratch out) h2.1).trans ?_
      rw [hw.ortho]
      exact h1.1

theorem r2c_parent {b : Base ℝ ℂ ℂ} (h : IsR2c n b) : Parent b b := by
  have h1 := h.fwdLin
  have h2 := h.bwdLin
  obtain ⟨hn, b0, hb, rfl⟩ := h
  obtain rfl := r2c_inv hb
  exact parent_self rfl (fun _ _ => rfl) (fun _ _ => rfl) h1 h2

theorem linOp_real {f : List ℂ → List ℂ → Res (List ℂ)} {n m : ℕ} (h : LinOp ℂ f n m) : LinOp ℝ f n m := by
  obtain ⟨g, c, l⟩ := h
  refine ⟨g, c, fun α β x y hx hy => ?_⟩
  have e : ∀ u v : List ℂ, linComb ℝ α β u v = linComb ℂ (α : ℂ) (β : ℂ) u v := fun u v => by
    simp [linComb]
  rw [e, e, l _ _ _ _ hx hy]

theorem c2c_parent {b : Base ℂ ℂ ℂ} (h : IsC2c n b) : Parent b b := by
  have h1 := linOp_real h.fwdLin
  have h2 := linOp_real h.bwdLin
  obtain ⟨hn, b0, hb, rfl⟩ := h
  obtain rfl := c2c_inv hb
  exact parent_self rfl (fun _ _ => rfl) (fun _ _ => rfl) h1 h2

/-- gradients of an orthogonal base that compose -/
theorem gradParent_self {P S T : Type} [CommRing T] [Algebra ℝ T] {b : Base P S T} (ho : b.lenOrth = b.lenSpec)
    (ht : ∀ x out, b.toOrthoSlice x out = pure (zipSet id x out))
    (hl : ∀ d, LinOp T (fun v out => b.gradientSlice v out d) b.lenSpec b.lenOrth)
    (hc : ∀ d e v out, v.length = b.lenSpec → out.length = b.lenSpec →
      ∃ g h, b.gradientSlice v out d = ok g ∧ b.gradientSlice g out e = ok h ∧ b.gradientSlice v out (d + e) = ok h) :
    GradParent b b := by
  choose g cg lg using hl
  refine ⟨ho.symm, rfl, fun i l => if l = i then 1 else 0, ?_, g, fun d => ⟨?_, ?_, ?_⟩, fun d e v hv => ?_⟩
  · rw [ho]; exact computes_matL_id ht
  · have := cg d
    rw [ho] at this ⊢; exact this
  · rw [ho]; exact lg d
  · rw [ho]
    have := cg d
    rw [ho] at this
    exact this.congr fun x hx => by rw [Function.comp_apply, matL_id x hx]
  · have hv' : v.length = b.lenSpec := hv.trans ho
    have hr : (List.replicate b.lenSpec (0 : T)).length = b.lenOrth := by rw [List.length_replicate, ho]
    obtain ⟨u, w, h1, h2, h3⟩ := hc d e v (List.replicate b.lenSpec 0) hv' (List.length_replicate ..)
    have k1 := cg d v _ hv' hr
    have k2 := cg e (g d v) _ (k1.2.trans ho) hr
    have k3 := cg (d + e) v _ hv' hr
    obtain rfl : g d v = u := Res.ok.inj (k1.1.symm.trans h1)
    exact (Res.ok.inj (k2.1.symm.trans h2)).trans (Res.ok.inj (k3.1.symm.trans h3)).symm

end


section
variable {T : Type} [CommRing T] [Algebra ℝ T] {k : Option CKind} {n : ℕ} {b b' : BaseR2r}

theorem cheb_gradParent (hb : chebyshev n = ok b') (h3 : 3 ≤ n) : GradParent (b'.toBase T) (b'.toBase T) := by
  have hl := fun d => r2r_gradient_lin (R := T) (T := T) (show newR2r none n = ok b' from hb) h3 d
  obtain ⟨hn, rfl⟩ := chebyshev_inv (show newR2r none n = ok b' from hb)
  refine gradParent_self rfl (fun _ _ => rfl) hl fun d e v out hv ho => ?_
  obtain ⟨g, h, h1, h2, h3⟩ := Props.C05_gradient_composes (K := ℝ) n h3 ⟨n, n⟩ (cheb_new_ok hn) v out out out hv ho
    ho ho d e
  exact ⟨g, h, h1, h2, h3⟩

theorem r2r_gradParent (hb : newR2r k n = ok b) (hg : RunsGrad k n) (hb' : chebyshev n = ok b') :
    GradParent (b.toBase T) (b'.toBase T) := by
  cases k with
  | none =>
    obtain rfl : b = b' := Res.ok.inj (hb.symm.trans hb')
    exact cheb_gradParent hb' hg
  | some k =>
    obtain ⟨s1, s2, s3⟩ := Props.C41_sizes_r2r (T := T) _ n b hb
    obtain ⟨t1, t2, t3⟩ := Props.C41_sizes_r2r (T := ℝ) _ n b hb
    have lτ := r2r_toOrtho_lin (R := ℝ) (T := ℝ) hb hg
    have lτT := r2r_toOrtho_lin (R := ℝ) (T := T) hb hg
    rw [t2, t3] at lτ
    rw [s2, s3] at lτT
    obtain ⟨τ, cτ⟩ := LinOp.computes lτ
    have eT := real_matrix cτ lτT (fun t x y => (Props.C95_slices (respects_smul t) b x y 0).1)
    generalize (fun i l => nth (τ (unitVec ℝ _ l)) i) = E at eT
    rw [← s3, ← s2] at eT
    obtain ⟨c, hc, hbc⟩ := composite_inv hb
    have hw := Compo.wf_of_new hc
    have h3 : 3 ≤ n := by
      have := hw.le
      have h4 : 4 ≤ n := le_trans (by cases k <;> decide) hw.le
      omega
    obtain ⟨u1, u2, E', hE', g, hgg, hgc⟩ := cheb_gradParent (T := T) hb' h3
    obtain ⟨hn, rfl⟩ := chebyshev_inv (show newR2r none n = ok b' from hb')
    refine ⟨s2.symm, s2.symm, E, eT, g, fun d => ⟨?_, ?_, ?_⟩, fun d e v hv => ?_⟩
    · rw [s2]; exact (hgg d).1
    · rw [s2]; exact (hgg d).2.1
    · intro x out hx hout
      subst hbc
      have ho : c.lenOrth = n := s2
      have h2 := eT x (List.replicate c.lenOrth 0) hx (List.length_replicate ..)
      have h1 := (hgg d).1 _ out (h2.2.trans ho) (hout.trans s2)
      refine ⟨?_, h1.2.trans s2.symm⟩
      show Compo.gradientSlice c x out d = _
      unfold Compo.gradientSlice
      dsimp only
      refine (congrArg (· >>= fun scratch => c.ortho.gradientSlice ℝ scratch out d) h2.1).trans ?_
      rw [hw.ortho]
      exact h1.1
    · exact hgc d e v (hv.trans s2)

theorem r2c_gradParent {b : Base ℝ ℂ ℂ} (h : IsR2c n b) : GradParent b b := by
  have hl := h.gradLin
  obtain ⟨hn, b0, hb, rfl⟩ := h
  obtain rfl := r2c_inv hb
  refine gradParent_self rfl (fun _ _ => rfl) hl fun d e v out hv ho => ?_
  exact Props.C29_gradient_composes n ⟨n, n / 2 + 1⟩ rfl v out out hv ho ho d e

theorem c2c_gradParent {b : Base ℂ ℂ ℂ} (h : IsC2c n b) : GradParent b b := by
  have hl := h.gradLin
  obtain ⟨hn, b0, hb, rfl⟩ := h
  obtain rfl := c2c_inv hb
  refine gradParent_self rfl (fun _ _ => rfl) hl fun d e v out hv ho => ?_
  refine ⟨_, _, c2c_gradient_eq n hn v out d hv ho, c2c_gradient_eq n hn _ out e (by simp) ho, ?_⟩
  refine (c2c_gradient_eq n hn v out (d + e) hv ho).trans ?_
  congr 1
  refine List.map_congr_left (fun q hq => ?_)
  rw [nth_map_range _ _ _ (List.mem_range.mp hq), pow_add, mul_assoc]

end

end Verif
