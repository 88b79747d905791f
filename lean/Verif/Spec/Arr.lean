/-
Specification: multidimensional arrays as functions of multi-indices.
-/
import Verif.Model.Axis

namespace Verif.Spec

/-- `idx` is a valid multi-index for the shape `sh`: same number of axes, each index below the
extent. -/
def InBounds (sh idx : List ℕ) : Prop := List.Forall₂ (· < ·) idx sh

/-- Row-major position of a multi-index. -/
def flat : List ℕ → List ℕ → ℕ
  | _ :: sh, i :: idx => i * sh.prod + flat sh idx
  | _, _ => 0

/-- Element of an array at a multi-index. -/
def at_ {T : Type} [Zero T] (a : Arr T) (idx : List ℕ) : T := nth a.data (flat a.shape idx)

/-- The one-dimensional lane of `a` through the multi-index `idx` along `axis`. -/
def laneAt {T : Type} [Zero T] (a : Arr T) (axis : ℕ) (idx : List ℕ) : List T :=
  (List.range (a.shape.getD axis 0)).map (fun k => at_ a (idx.set axis k))

/-- `out` is obtained from `a` by replacing every lane along `axis` by its image (of length `m`)
under the one-dimensional operator `g`. -/
def MapsLanes {S T : Type} [Zero S] [Zero T] (g : List S → List T) (m : ℕ) (a : Arr S) (axis : ℕ)
    (out : Arr T) : Prop :=
  out.shape = a.shape.set axis m ∧ out.WF ∧ out.std = true ∧
  ∀ idx, InBounds out.shape idx → at_ out idx = nth (g (laneAt a axis idx)) (idx.getD axis 0)

end Verif.Spec
