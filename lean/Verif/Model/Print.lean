import Verif.Model.Agent

/-!
# Text output (`operator<<`, `print`)

A stream is a list of characters and numbers. How a number is converted to digits (default precision 6) is left
out. `transpose()` of an `Array3d` is written as three numbers with blanks between them (Eigen also pads
them to equal width).
-/

namespace DOA

variable {α : Type} [Add α] [Sub α] [Mul α] [Div α] [Neg α] [Zero α] [One α]
  [LE α] [LT α] [DecidableLE α] [DecidableLT α] [CMath α]

namespace Print

/-- One element of the text: a character or a number. -/
inductive Sym (α : Type) where
  | chr (c : Char)
  | num (a : α)

abbrev Text (α : Type) := List (Sym α)

/-- `os << "…"` -/
def str (s : String) : Text α := s.toList.map .chr
/-- `os << x` for a double. -/
def num (a : α) : Text α := [.num a]
/-- `os << std::endl` -/
def endl : Text α := [.chr '\n']
/-- `"(" << v(0) << ", " << v(1) << ", " << v(2) << ")"` -/
def triple (v : V3 α) : Text α := str "(" ++ num v.x ++ str ", " ++ num v.y ++ str ", " ++ num v.z ++ str ")"
/-- `os << v.transpose()` -/
def row (v : V3 α) : Text α := num v.x ++ str " " ++ num v.y ++ str " " ++ num v.z

/-- `operator<<` for `Pose` (State/Pose.hpp:75-90). -/
def pose (p : Pose α) : Text α :=
  str "position: " ++ triple p.position ++ endl
    ++ str "orientation: (" ++ num p.orientation.w ++ str ", " ++ num p.orientation.x ++ str ", "
    ++ num p.orientation.y ++ str ", " ++ num p.orientation.z ++ str ")"
    ++ str " <=> theta: " ++ num p.orientation.toAngleAxis.1 ++ str ", "
    ++ str "axis: " ++ triple p.orientation.toAngleAxis.2

/-- `operator<<` for `State` (State/State.hpp:87-97). -/
def state (s : State α) : Text α :=
  pose s.pose ++ endl ++ str "linear velocity: " ++ triple s.linearVelocity ++ endl
    ++ str "angular velocity: " ++ triple s.angularVelocity

/-- The member `type` (set by the constructors; empty for a plain `Obstacle`). -/
def typeName : Obj α → String
  | .plain _ => ""
  | .ellipsoid _ => "Ellipsoid"
  | .hull _ => "StarShapeHull"
  | .aggregate _ => "Aggregate"

/-- `Obstacle::print` (Obstacle.hpp:453-462). The copy made by `static_cast<Obstacle>(*this)` keeps the type. -/
def base (type : String) (b : Base α) : Res (Text α) := do
  let ref ← b.ref
  .ok (str type ++ str " " ++ str b.name ++ endl ++ state b.state ++ endl ++ str "reference position: " ++ triple ref
    ++ endl ++ str "safety margin: " ++ row b.margin)

/-- `Ellipsoid::print` (Ellipsoid.hpp:245-255). -/
def ellipsoid (e : Ellipsoid α) : Res (Text α) := do
  let b ← base "Ellipsoid" e.base
  .ok (b ++ endl ++ str "axis lengths: " ++ triple e.axis ++ endl ++ str "curvature factor: " ++ triple e.curv)

/-- Virtual `print`: Obstacle.hpp:453-462, Ellipsoid.hpp:245-255, Aggregate.hpp:133-143; a `StarShapeHull` has no
override. -/
def objAux : Nat → Heap α → Obj α → Res (Text α)
  | 0, _, _ => .ub .recursion
  | fuel + 1, h, o =>
    match o with
    | .plain b => base "" b
    | .ellipsoid e => ellipsoid e
    | .hull k => base "StarShapeHull" k.base
    | .aggregate a => do
      let b ← base "Aggregate" a.base
      let ps ← a.prims.mapM (fun p => do
        let q ← h.deref p
        let t ← objAux fuel h q
        .ok (str "---" ++ endl ++ t ++ endl))
      .ok (b ++ endl ++ str "Composed of:" ++ endl ++ ps.flatten)

/-- `os << *o` (Obstacle.hpp:464-467). -/
def obj (h : Heap α) (o : Obj α) : Res (Text α) := objAux h.fuel h o

/-- `operator<<` for `Agent` (Agent.hpp:205-211). -/
def agent (a : Agent α) : Text α :=
  str "Agent" ++ endl ++ state a.state ++ endl ++ str "safety margin: " ++ num a.margin

end Print
end DOA
