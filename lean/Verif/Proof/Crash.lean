/- Executions with crashes are part of executions without. -/
import Verif.Spec.Crash

namespace Verif
open Mpi Res Spec

section
variable {T α : Type} {P : ℕ} {ps : ℕ → Prog T α} {a : ℕ → α}

/-- the rank that moves is not where it was -/
theorem step_mover {w w' : World T α} (h : Step P w w') : ∃ r < P, w'.loc r ≠ w.loc r ∧ (∀ s ≠ r, w'.loc s = w.loc s) ∧
    ∀ s x, s ≠ r → x ≠ r → w'.net s x = w.net s x := by
  cases h with
  | enter r hr h =>
    refine ⟨r, hr, by simp [h], fun s hs => by simp [hs], fun s x hs _ => by simp [hs]⟩
  | recv r s hr hs h hg hn hf hd =>
    refine ⟨r, hr, by simp [h], fun s hs => by simp [hs], fun s x _ hx => by simp [hx]⟩
  | leave r hr h hg =>
    refine ⟨r, hr, by simp [h], fun s hs => by simp [hs], fun s x hs _ => rfl⟩

/-- a rank that has returned stays as it is -/
theorem step_returned {w w' : World T α} (h : Step P w w') {r : ℕ} {x : Res α} (hx : w.loc r = .idle (.ret x)) :
    w'.loc r = .idle (.ret x) := by
  cases h with
  | enter s hs h =>
    have : r ≠ s := by rintro rfl; rw [hx] at h; cases h
    simpa [this] using hx
  | recv s t hs ht h hg hn hf hd =>
    have : r ≠ s := by rintro rfl; rw [hx] at h; cases h
    simpa [this] using hx
  | leave s hs h hg =>
    have : r ≠ s := by rintro rfl; rw [hx] at h; cases h
    simpa [this] using hx

/-- from every state the ranks can go on until all have returned -/
theorem AllReturn.finish (h : AllReturn P ps a) {n : ℕ} {w : World T α} (hw : Steps P n (World.init ps) w) :
    ∃ m w', Steps P m (World.init ps) w' ∧ w'.Finished P ∧ ∀ r x, w.loc r = .idle (.ret x) → w'.loc r = .idle (.ret x) := by
  obtain ⟨h1, B, hB⟩ := h
  obtain ⟨d, hd⟩ : ∃ d, d = B - n := ⟨_, rfl⟩
  induction d generalizing n w with
  | zero =>
    by_cases hf : w.Finished P
    · exact ⟨n, w, hw, hf, fun _ _ hx => hx⟩
    · obtain ⟨w', hs⟩ := (h1 n w hw).2.1 hf
      have := hB _ _ (.tail hw hs)
      have := hB _ _ hw
      omega
  | succ d ih =>
    by_cases hf : w.Finished P
    · exact ⟨n, w, hw, hf, fun _ _ hx => hx⟩
    · obtain ⟨w', hs⟩ := (h1 n w hw).2.1 hf
      have := hB _ _ (.tail hw hs)
      obtain ⟨m, w'', k1, k2, k3⟩ := ih (.tail hw hs) (by omega)
      exact ⟨m, w'', k1, k2, fun r x hx => k3 r x (step_returned hs hx)⟩

/-- a rank that has returned has returned its result -/
theorem AllReturn.returned (h : AllReturn P ps a) {n : ℕ} {w : World T α} (hw : Steps P n (World.init ps) w) {r : ℕ} (hr : r < P)
    {x : Res α} (hx : w.loc r = .idle (.ret x)) : x = ok (a r) := by
  obtain ⟨m, w', k1, k2, k3⟩ := AllReturn.finish h hw
  have := ((h.1 m w' k1).2.2 k2 r hr).1
  rw [k3 r x hx] at this
  injection this with e; injection e

/-- `c` is the execution `w` with the last messages of ranks that have stopped missing -/
structure Cut (c : CrashWorld T α) (w : World T α) : Prop where
  loc : c.world.loc = w.loc
  net : ∀ s x, c.world.net s x <+: w.net s x
  alive : ∀ s x, ¬ c.dead s → c.world.net s x = w.net s x

theorem cut_step {c c' : CrashWorld T α} (h : CrashStep P c c') {n : ℕ} {w : World T α} (hw : Steps P n (World.init ps) w)
    (hc : Cut c w) : ∃ m w', Steps P m (World.init ps) w' ∧ Cut c' w' := by
  cases h with
  | crash r hr hn =>
    refine ⟨n, w, hw, hc.loc, fun s x => ?_, fun s x hs => ?_⟩
    · by_cases h : s = r
      · subst h; exact (hr x).trans (hc.net s x)
      · show _ <+: _; dsimp only; rw [hn s x h]; exact hc.net s x
    · have hs' : s ≠ r := fun h => hs (.inl h)
      dsimp only; rw [hn s x hs']; exact hc.alive s x (fun h => hs (.inr h))
  | step h hd =>
    cases h with
    | enter r hr h =>
      have hdr : ¬ c.dead r := fun hx => by
        have := hd r hx
        simp [h] at this
      refine ⟨n + 1, _, .tail hw (.enter r hr (hc.loc ▸ h)), by show Function.update _ _ _ = Function.update _ _ _; rw [hc.loc], ?_, ?_⟩
      · intro s x
        dsimp only
        split
        · next e => subst e; rw [hc.alive _ _ hdr]; exact List.prefix_rfl
        · exact hc.net s x
      · intro s x hs
        dsimp only
        split
        · next e => subst e; rw [hc.alive _ _ hdr]
        · exact hc.alive s x hs
    | @recv r s hr hs cc buf got k m ms d h hg hn hf hdd =>
      obtain ⟨t, ht⟩ := hc.net s r
      rw [hn] at ht
      refine ⟨n + 1, _, .tail hw (.recv r s hr hs (ms := ms ++ t) (hc.loc ▸ h) hg (by rw [← ht]; rfl) hf hdd), by
        show Function.update _ _ _ = Function.update _ _ _; rw [hc.loc], ?_, ?_⟩
      · intro x y
        dsimp only
        split
        · exact List.prefix_append _ _
        · exact hc.net x y
      · intro x y hx
        dsimp only
        split
        · next e =>
          have := hc.alive x y hx
          rw [e.1, e.2, hn, ← ht] at this
          have : t = [] := by simpa using this
          rw [this, List.append_nil]
        · exact hc.alive x y hx
    | leave r hr h hg =>
      exact ⟨n + 1, _, .tail hw (.leave r hr (hc.loc ▸ h) hg), by
        show Function.update _ _ _ = Function.update _ _ _; rw [hc.loc], hc.net, hc.alive⟩

theorem cut_reach {c : CrashWorld T α} (h : CrashReach P ps c) : ∃ n w, Steps P n (World.init ps) w ∧ Cut c w := by
  induction h with
  | init => exact ⟨0, _, .refl _, rfl, fun s x => List.prefix_rfl, fun _ _ _ => rfl⟩
  | step _ hs ih =>
    obtain ⟨n, w, hw, hc⟩ := ih
    exact cut_step hs hw hc

theorem AllReturn.crashSafe (h : AllReturn P ps a) : CrashSafe P ps a := by
  intro c hc
  obtain ⟨n, w, hw, k⟩ := cut_reach hc
  have key := h.1 n w hw
  refine ⟨fun hf => key.1 ?_, fun r hr x hx => AllReturn.returned h hw hr (k.loc ▸ hx), fun hd => ?_⟩
  · rcases hf with ⟨r, hr, e, he⟩ | ⟨r, hr, s, hs, cc, buf, got, kk, m, ms, h1, h2, h3, h4, h5⟩
    · exact .inl ⟨r, hr, e, k.loc ▸ he⟩
    · obtain ⟨t, ht⟩ := k.net s r
      rw [h4] at ht
      exact .inr ⟨r, hr, s, hs, cc, buf, got, kk, m, ms ++ t, k.loc ▸ h1, h2, h3, by rw [← ht]; rfl, h5⟩
  · have e : c.world = w := by
      obtain ⟨⟨loc, net⟩, dead⟩ := c
      obtain ⟨loc', net'⟩ := w
      obtain rfl : loc = loc' := k.loc
      obtain rfl : net = net' := funext fun s => funext fun x => k.alive s x (hd s)
      rfl
    by_cases hf : w.Finished P
    · exact .inl (e ▸ hf)
    · obtain ⟨w', hs⟩ := key.2.1 hf
      exact .inr ⟨_, .step (w := w') (by rw [e]; exact hs) (fun r hr => absurd hr (hd r)), hd⟩

end
end Verif
