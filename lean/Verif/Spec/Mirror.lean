import Verif.Spec.View
import Verif.Model.Hull

/-!
# A hull that is its own mirror image
-/

namespace DOA.Spec

/-- Left and right exchanged. -/
def mirror : View := ⟨1, 0, -1, V3.zero⟩

/-- The hull is its own mirror image: centre and reference point lie on the mirror, and the surface points are
exchanged among themselves. -/
structure OwnMirror (k : Hull ℝ) : Prop where
  centre : mirror.point k.base.position = k.base.position
  ref : k.base.refPos.map mirror.point = k.base.refPos
  surface : (k.cart.map mirror.point).Perm k.cart

end DOA.Spec
