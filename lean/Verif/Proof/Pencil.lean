/- Two-dimensional arrays, swapped copies and the merge loops. -/
import Verif.Model.Decomp
import Verif.Proof.Coll
import Verif.Proof.LinOps
import Verif.Proof.Lanes
import Verif.Spec.Space

namespace Verif
open Res Spec

variable {T : Type} [Zero T]

/-- the array with entries `f i j` -/
def mk2 (n0 n1 : ℕ) (f : ℕ → ℕ → T) : Arr T :=
  ⟨[n0, n1], (List.range (n0 * n1)).map (fun k => f (k / n1) (k % n1)), true⟩

theorem idx2_lt {n0 n1 i j : ℕ} (hi : i < n0) (hj : j < n1) : i * n1 + j < n0 * n1 := by
  have : (i + 1) * n1 ≤ n0 * n1 := Nat.mul_le_mul_right _ hi
  rw [Nat.add_mul, Nat.one_mul] at this; omega

theorem idx2_div {n1 i j : ℕ} (hj : j < n1) : (i * n1 + j) / n1 = i := by
  rw [mul_comm, Nat.mul_add_div (by omega), Nat.div_eq_of_lt hj, Nat.add_zero]

theorem idx2_mod {n1 i j : ℕ} (hj : j < n1) : (i * n1 + j) % n1 = j := by
  rw [mul_comm, Nat.mul_add_mod, Nat.mod_eq_of_lt hj]

theorem idx2_inj {n1 i j i' j' : ℕ} (hj : j < n1) (hj' : j' < n1) (h : i * n1 + j = i' * n1 + j') :
    i = i' ∧ j = j' := by
  refine ⟨?_, ?_⟩
  · rw [← idx2_div (i := i) hj, h, idx2_div hj']
  · rw [← idx2_mod (i := i) hj, h, idx2_mod hj']

theorem nth_mk2 {n0 n1 i j : ℕ} (f : ℕ → ℕ → T) (hi : i < n0) (hj : j < n1) :
    nth (mk2 n0 n1 f).data (i * n1 + j) = f i j := by
  unfold mk2
  rw [nth_map_range _ _ _ (idx2_lt hi hj), idx2_div hj, idx2_mod hj]

omit [Zero T] in
theorem good_mk2 (n0 n1 : ℕ) (f : ℕ → ℕ → T) : Good (mk2 n0 n1 f) [n0, n1] :=
  ⟨by unfold Arr.WF mk2; simp, rfl, rfl⟩

omit [Zero T] in
theorem mk2_congr {n0 n1 : ℕ} {f g : ℕ → ℕ → T} (h : ∀ i < n0, ∀ j < n1, f i j = g i j) :
    mk2 n0 n1 f = mk2 n0 n1 g := by
  unfold mk2
  congr 1
  refine List.map_congr_left (fun k hk => ?_)
  have hk := List.mem_range.1 hk
  have h1 : 0 < n1 := by
    rcases Nat.eq_zero_or_pos n1 with rfl | h
    · simp at hk
    · exact h
  exact h _ (Nat.div_lt_of_lt_mul (by rw [mul_comm]; exact hk)) _ (Nat.mod_lt _ h1)

theorem at_mk2 {n0 n1 i j : ℕ} (f : ℕ → ℕ → T) (hi : i < n0) (hj : j < n1) :
    at_ (mk2 n0 n1 f) [i, j] = f i j := by
  have : at_ (mk2 n0 n1 f) [i, j] = nth (mk2 n0 n1 f).data (i * n1 + j) := by
    unfold at_; congr 1; simp [mk2, flat]
  rw [this, nth_mk2 f hi hj]

/-- every two-dimensional array has this form -/
theorem eq_mk2 {a : Arr T} {n0 n1 : ℕ} (h : Good a [n0, n1]) :
    a = mk2 n0 n1 (fun i j => at_ a [i, j]) := by
  obtain ⟨h1, h2, h3⟩ := h
  obtain ⟨sh, data, std⟩ := a
  have h2 : std = true := h2
  have h3 : sh = [n0, n1] := h3
  subst h2; subst h3
  unfold mk2
  congr 1
  have hl : data.length = n0 * n1 := by have := h1; simpa [Arr.WF] using this
  refine ext_nth (by simp [hl]) (fun k hk => ?_)
  have hk : k < n0 * n1 := by omega
  have h1 : 0 < n1 := by
    rcases Nat.eq_zero_or_pos n1 with rfl | h
    · simp at hk
    · exact h
  rw [nth_map_range _ _ _ hk]
  unfold at_
  congr 1
  simp only [flat, List.prod_cons, List.prod_nil, Nat.mul_one, Nat.add_zero]
  rw [mul_comm]; exact (Nat.div_add_mod k n1).symm

theorem swapAxes_mk2 (n0 n1 : ℕ) (f : ℕ → ℕ → T) :
    swapAxes (mk2 n0 n1 f) = mk2 n1 n0 (fun j i => f i j) := by
  change (⟨[n1, n0], (List.range (n1 * n0)).map
      (fun k => nth (mk2 n0 n1 f).data ((k % n0) * n1 + k / n0)), true⟩ : Arr T) = _
  unfold mk2
  congr 1
  refine List.map_congr_left (fun k hk => ?_)
  have hk := List.mem_range.1 hk
  have h0 : 0 < n0 := by
    rcases Nat.eq_zero_or_pos n0 with rfl | h
    · simp at hk
    · exact h
  have hd : k / n0 < n1 := Nat.div_lt_of_lt_mul (by rw [mul_comm]; exact hk)
  exact nth_mk2 f (Nat.mod_lt _ h0) hd

theorem copyPlain_mk2 {rcv : Arr T} {n0 n1 : ℕ} (h : Good rcv [n0, n1]) (f : ℕ → ℕ → T) :
    Decomp2d.copyPlain rcv (mk2 n0 n1 f).data = mk2 n0 n1 f := by
  rw [eq_mk2 h]
  unfold Decomp2d.copyPlain
  rw [zipSet_id_ok _ _ (by simp [mk2])]
  rfl

theorem copySwapped_mk2 {rcv : Arr T} {n0 n1 : ℕ} (h : Good rcv [n0, n1]) (f : ℕ → ℕ → T) :
    Decomp2d.copySwapped rcv (mk2 n1 n0 (fun j i => f i j)).data = mk2 n0 n1 f := by
  rw [eq_mk2 h]
  unfold Decomp2d.copySwapped
  rw [swapAxes_mk2]
  dsimp only
  rw [zipSet_id_ok _ _ (by simp [mk2])]
  change swapAxes (mk2 n1 n0 (fun j i => f i j)) = _
  rw [swapAxes_mk2]

/-- sending buffers -/
theorem zipSet_zeroVec {l : List T} {n : ℕ} (h : l.length = n) :
    zipSet id l (Decomp2d.zeroVec n : List T) = l := zipSet_id_ok _ _ (by simp [Decomp2d.zeroVec, h])

/-! ### the merge loops -/

set_option maxHeartbeats 800000 in
theorem merge_loop (o : Mode) {P c n : ℕ} {off cnt : ℕ → ℕ}
    (h0 : off 0 = 0) (hs : ∀ s, off (s + 1) = off s + cnt s) (hP : off P = n)
    (hpos : ∀ s < P, 1 ≤ cnt s)
    (sh : List ℕ) (L : ℕ) (ad : ℕ → ℕ → ℕ) (W : Arr T → ℕ → ℕ → T → Res (Arr T))
    (hW : ∀ a : Arr T, a.shape = sh → a.data.length = L → ∀ i < c, ∀ j < n, ∀ x,
      W a i j x = ok { a with data := a.data.set (ad i j) x })
    (hinj : ∀ i < c, ∀ j < n, ∀ i' < c, ∀ j' < n, ad i j = ad i' j' → i = i' ∧ j = j')
    (hlt : ∀ i < c, ∀ j < n, ad i j < L)
    (buf : List T) (hb : buf.length = n * c) (hw : n * c < usizeW) (g : ℕ → ℕ → T)
    (hg : ∀ s < P, ∀ i < c, ∀ j < cnt s, nth buf (off s * c + (i * cnt s + j)) = g i (off s + j))
    (F : ℕ → Arr T × ℕ → Res (Arr T × ℕ))
    (hF : ∀ s < P, ∀ x, F s x = forRange 0 c (fun i x =>
      forRange (off s) (off (s + 1) - 1 + 1) (fun j x => do
        let data ← W x.1 i j (← rdC buf x.2)
        pure (data, ← o.add x.2 1)) x) x)
    (a : Arr T) (ha : a.shape = sh) (hL : a.data.length = L) :
    ∃ b p, forRange 0 P F (a, 0) = ok (b, p) ∧ b.shape = sh ∧ b.std = a.std ∧ b.data.length = L ∧
      ∀ i < c, ∀ j < n, nth b.data (ad i j) = g i j := by
  have mono : Monotone off := monotone_nat_of_le_succ (fun i => by rw [hs]; omega)
  let I : ℕ → ℕ → ℕ → Arr T × ℕ → Prop := fun k i0 j0 x =>
    x.1.shape = sh ∧ x.1.std = a.std ∧ x.1.data.length = L ∧
    x.2 = off k * c + (i0 * cnt k + (j0 - off k)) ∧
    ∀ i < c, ∀ j < n, (j < off k ∨ (i < i0 ∧ j < off (k + 1)) ∨ (i = i0 ∧ j < j0)) →
      nth x.1.data (ad i j) = g i j
  have key : wp (fun _ => False) (forRange 0 P F (a, 0)) (fun x => I P 0 (off P) x) := by
    refine wp_forRange (I := fun k x => I k 0 (off k) x) ?_ ?_ ?_
    · refine ⟨ha, rfl, hL, by simp [h0], ?_⟩
      intro i _ j _ h
      rw [h0] at h
      exfalso; omega
    · intro k x _ hk hI
      rw [hF k hk]
      refine wp_forRange (I := fun i0 x => I k i0 (off k) x) hI ?_ ?_
      · intro i0 x _ hi0 hI
        have hc1 := hpos k hk
        have hsk := hs k
        have hle : off (k + 1) ≤ n := by rw [← hP]; exact mono hk
        refine wp_forRange (I := fun j0 x => I k i0 j0 x) hI ?_ ?_
        · rintro j0 ⟨b, p⟩ hj1 hj2 ⟨e1, e2, e3, e4, e5⟩
          have e4 : p = off k * c + (i0 * cnt k + (j0 - off k)) := e4
          have e3 : b.data.length = L := e3
          have hmul : off k * c + cnt k * c ≤ n * c := by
            rw [← Nat.add_mul, ← hsk]; exact Nat.mul_le_mul_right _ hle
          have hmul' : i0 * cnt k + (j0 - off k) < c * cnt k := idx2_lt hi0 (by omega)
          have hcomm := mul_comm c (cnt k)
          have hp : p < n * c := by omega
          refine wp_bind_i (wp_rdC_i (by change p < _; omega) ?_)
          change wp _ (W b i0 j0 (nth buf p) >>= _) _
          rw [hW b e1 e3 i0 hi0 j0 (by omega), bind_ok]
          refine wp_bind_i (wp_add_exact (by change p + 1 < _; omega) ?_)
          refine wp_pure_i ?_
          refine ⟨e1, e2, by simpa using e3, by change p + 1 = _; omega, ?_⟩
          intro i hi j hj hcase
          change nth (b.data.set (ad i0 j0) (nth buf p)) (ad i j) = _
          by_cases hij : i = i0 ∧ j = j0
          · obtain ⟨rfl, rfl⟩ := hij
            rw [nth_set_self _ _ _ (by rw [e3]; exact hlt i hi j hj), e4,
              hg k hk i hi (j - off k) (by omega)]
            congr 1; omega
          · rw [nth_set_ne]
            · exact e5 i hi j hj (by omega)
            · intro hcon
              have := hinj i0 hi0 j0 (by omega) i hi j hj hcon
              omega
        · rintro ⟨b, p⟩ ⟨e1, e2, e3, e4, e5⟩
          rw [show max (off k) (off (k + 1) - 1 + 1) = off (k + 1) by omega] at e4 e5
          refine ⟨e1, e2, e3, ?_, ?_⟩
          · rw [e4, Nat.add_mul]; omega
          · intro i hi j hj hcase
            exact e5 i hi j hj (by omega)
      · rintro ⟨b, p⟩ ⟨e1, e2, e3, e4, e5⟩
        rw [show max 0 c = c by omega] at e4 e5
        have e4 : p = off k * c + (c * cnt k + (off k - off k)) := e4
        refine ⟨e1, e2, e3, ?_, ?_⟩
        · change p = _
          rw [e4, hs k, Nat.add_mul, mul_comm c (cnt k)]; omega
        · intro i hi j hj hcase
          exact e5 i hi j hj (by omega)
    · intro x hx
      rwa [show max 0 P = P by omega] at hx
  obtain ⟨⟨b, p⟩, hb', e1, e2, e3, e4, e5⟩ := wp_total.1 key
  refine ⟨b, p, hb', e1, e2, e3, ?_⟩
  intro i hi j hj
  exact e5 i hi j hj (by left; omega)

omit [Zero T] in
theorem wr2_ok {a : Arr T} {n0 n1 : ℕ} (h : a.shape = [n0, n1]) (hl : a.data.length = n0 * n1)
    {i j : ℕ} (hi : i < n0) (hj : j < n1) (x : T) :
    wr2 a i j x = ok { a with data := a.data.set (i * n1 + j) x } := by
  unfold wr2
  rw [h]
  change (assertR (i < n0 ∧ j < n1) >>= _) = _
  rw [assertR_ok ⟨hi, hj⟩, bind_ok, wrC_ok (by rw [hl]; exact idx2_lt hi hj)]
  rfl

end Verif
