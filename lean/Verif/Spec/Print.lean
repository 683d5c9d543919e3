import Mathlib.Analysis.SpecialFunctions.Trigonometric.Basic
import Verif.Model.Print

/-!
# Specification vocabulary for the text output
-/

namespace DOA.Spec

variable {α : Type}

/- Two objects, in possibly different heaps, hold the same visible values: same kind, name, state, reference position,
margin, and, depending on the kind, the same axes and curvature or primitives that are the same one by one. Of a hull,
only what every obstacle has is compared. -/
mutual
  inductive Same (h h' : Heap α) : Obj α → Obj α → Prop
    | plain (b : Base α) : Same h h' (.plain b) (.plain b)
    | ellipsoid (e : Ellipsoid α) : Same h h' (.ellipsoid e) (.ellipsoid e)
    | hull (k k' : Hull α) : k.base = k'.base → Same h h' (.hull k) (.hull k')
    | aggregate (a a' : Aggregate α) : a.base = a'.base → SameAll h h' a.prims a'.prims →
        Same h h' (.aggregate a) (.aggregate a')
  inductive SameAll (h h' : Heap α) : List Ptr → List Ptr → Prop
    | nil : SameAll h h' [] []
    | cons (p p' : Ptr) (ps ps' : List Ptr) (o o' : Obj α) : h[p]? = some o → h'[p']? = some o' → Same h h' o o' →
        SameAll h h' ps ps' → SameAll h h' (p :: ps) (p' :: ps')
end

/-- The name fits on one line. -/
def OneLine (o : Obj α) : Prop := '\n' ∉ o.base.name.toList

open Print in
/-- The lines of a text. -/
def lines : Text α → List (Text α)
  | [] => [[]]
  | s :: t =>
    match s, lines t with
    | .chr '\n', ls => [] :: ls
    | s, l :: ls => (s :: l) :: ls
    | s, [] => [[s]]

open Print in
/-- The numbers in a text, in order. -/
def numbers (t : Text α) : List α := t.filterMap fun | .num a => some a | .chr _ => none

open Print in
/-- The label of a line: the characters before the colon. -/
def label : Text α → List Char
  | .chr c :: t => if c = ':' then [] else c :: label t
  | _ => []

open Print in
/-- Label and numbers of a line. -/
def entry (l : Text α) : List Char × List α := (label l, numbers l)

/-- The components of a vector. -/
def comps (v : V3 α) : List α := [v.x, v.y, v.z]

/-- Rodrigues' formula: `v` turned by the angle `θ` about the unit vector `n`. -/
noncomputable def turned (θ : ℝ) (n v : V3 ℝ) : V3 ℝ :=
  let d := n.x * v.x + n.y * v.y + n.z * v.z
  ⟨Real.cos θ * v.x + Real.sin θ * (n.y * v.z - n.z * v.y) + (1 - Real.cos θ) * d * n.x,
   Real.cos θ * v.y + Real.sin θ * (n.z * v.x - n.x * v.z) + (1 - Real.cos θ) * d * n.y,
   Real.cos θ * v.z + Real.sin θ * (n.x * v.y - n.y * v.x) + (1 - Real.cos θ) * d * n.z⟩

end DOA.Spec
