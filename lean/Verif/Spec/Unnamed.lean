import Verif.Model.Objects

/-! # What remains of obstacles if one forgets their names -/

namespace DOA.Spec
open DOA

variable {α : Type}

/-- The object without its name. -/
def unname (o : Obj α) : Obj α := o.mapBase (·.setName "")

/-- The memory without names. -/
def unnamed (h : Heap α) : Heap α := h.map unname

/-- The same obstacles at the same places, with any names. -/
def SameUnnamed (h h' : Heap α) : Prop := unnamed h = unnamed h'

end DOA.Spec
