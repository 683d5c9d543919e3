import Verif.Model.Eigen
import Verif.Model.Res

/-!
# MathTools (src/Utils/MathTools.cpp, include/.../Utils/MathTools.hpp)
-/

namespace DOA.MathTools

variable {α : Type} [Add α] [Sub α] [Mul α] [Div α] [Neg α] [Zero α] [One α]
  [LE α] [LT α] [DecidableLE α] [DecidableLT α] [CMath α]

/-- An integer converted to `double`. -/
def ofInt (i : Int) : α := lit i 1

/-- `linspace` (src/Utils/MathTools.cpp:5-22).  `num` is a C++ `int`.  The loop
`for (i = 1; i < num - 1; i++) push_back(start + i * length)` is the mapped range. -/
def linspace (start stop : α) (num : Int) : Res (List α) :=
  if num < 2 then .throw .linspacePtr
  else
    let partitions := num - 1
    let length := (stop - start) / ofInt partitions
    .ok (start ::
      ((List.range (num - 2).toNat).map (fun (k : Nat) => start + ofInt ((k : Int) + 1) * length)
        ++ [stop]))

/-- The inner loop over `y` of `gridspace` (src/Utils/MathTools.cpp:34-40); the state is the grid
and the running index `i`; a write outside the grid is undefined behaviour. -/
def gridRow (x : α) : List α → List (V2 α) × Nat → Res (List (V2 α) × Nat)
  | [], s => .ok s
  | y :: ys, (grid, i) =>
    if i < grid.length then gridRow x ys (grid.set i ⟨x, y⟩, i + 1) else .ub .indexOOB

/-- The outer loop over `x` of `gridspace` (src/Utils/MathTools.cpp:32-41). -/
def gridLoop (ys : List α) : List α → List (V2 α) × Nat → Res (List (V2 α) × Nat)
  | [], s => .ok s
  | x :: xs, s => do
    let s' ← gridRow x ys s
    gridLoop ys xs s'

/-- `gridspace` (src/Utils/MathTools.cpp:24-43).  `resize` default-constructs the cells (Eigen
leaves them uninitialised): `junk` stands for that indeterminate content.
Simplification: the `int` product `nx * ny` does not overflow. -/
def gridspace (junk : V2 α) (start stop : α × α) (size : Int × Int) : Res (List (V2 α)) := do
  let lx ← linspace start.1 stop.1 size.1
  let ly ← linspace start.2 stop.2 size.2
  let s ← gridLoop ly lx (List.replicate (size.1 * size.2).toNat junk, 0)
  .ok s.1

/-- `rand_float` (src/Utils/MathTools.cpp:45-48); `r` is the value returned by `rand()`, and
`randMax` is `RAND_MAX`. -/
def randFloat (r randMax : Nat) (a b : α) : α :=
  (ofInt r / ofInt randMax) * (a - b) + b

/-- `sign` (include/.../Utils/MathTools.hpp:19-23): `(T(0) < val) - (val < T(0))`. -/
def sign (v : α) : Int := (if (0 : α) < v then 1 else 0) - (if v < 0 then 1 else 0)

/-- `cartesian_to_polar` (src/Utils/MathTools.cpp:50-56). -/
def cartesianToPolar (p : V3 α) : V3 α :=
  let radius := CMath.sqrt (p.x * p.x + p.y * p.y + p.z * p.z)
  let theta := CMath.acos (p.z / radius)
  let phi := CMath.atan2 p.y p.x
  ⟨radius, theta, phi⟩

/-- `polar_to_cartesian` (src/Utils/MathTools.cpp:58-64). -/
def polarToCartesian (p : V3 α) : V3 α :=
  ⟨p.x * CMath.sin p.y * CMath.cos p.z, p.x * CMath.sin p.y * CMath.sin p.z, p.x * CMath.cos p.y⟩

/-- insertion into a sorted list, before the first element that is not smaller. -/
def insertBy {β : Type} (lt : β → β → Bool) (b : β) : List β → List β
  | [] => [b]
  | c :: l => if lt c b then c :: insertBy lt b l else b :: c :: l

/-- Model of `std::sort(begin, end, lt)`: some sorted permutation. `std::sort` leaves the order of
equivalent elements unspecified; the model picks the stable order. -/
def sortBy {β : Type} (lt : β → β → Bool) : List β → List β
  | [] => []
  | b :: l => insertBy lt b (sortBy lt l)

/-- `compare_theta` (src/Utils/MathTools.cpp:66-69). -/
def compareTheta (l r : V3 α) : Bool := decide (l.y < r.y)

/-- `sorted_cols_by_theta` (src/Utils/MathTools.cpp:71-83); a `3 x n` matrix is the list of its
columns. -/
def sortedColsByTheta (A : List (V3 α)) : List (V3 α) := sortBy compareTheta A

/-- Coordinate `index` of a column (`A.col(i)(index)`); an index above 2 is out of range. -/
def coord (v : V3 α) : Nat → Res α
  | 0 => .ok v.x
  | 1 => .ok v.y
  | 2 => .ok v.z
  | _ => .ub .indexOOB

/-- `std::lower_bound(begin, end, v)` (used at src/Utils/MathTools.cpp:89): binary search over
`[first, first+count)`, exactly as libstdc++ writes it; `l` may be unsorted.
`fuel` bounds the number of halvings; `count + 1` is enough. -/
def lowerBoundLoop (l : List α) (v : α) : Nat → Nat → Nat → Nat
  | 0, first, _ => first
  | fuel + 1, first, count =>
    if count = 0 then first
    else
      let step := count / 2
      match l[first + step]? with
      | none => first
      | some m =>
        if m < v then lowerBoundLoop l v fuel (first + step + 1) (count - (step + 1))
        else lowerBoundLoop l v fuel first step

/-- `std::lower_bound` on the whole list, as an index. -/
def lowerBound (l : List α) (v : α) : Nat := lowerBoundLoop l v (l.length + 1) 0 l.length

/-- `find_closest_points` (src/Utils/MathTools.cpp:85-93).  `% vec.size()` with an empty vector is a
remainder by zero. (`it + 1` past the end is formally undefined too; its value is only used for
the remainder, so the model computes it.) -/
def findClosestPoints (A : List (V3 α)) (p : V3 α) (index : Nat) : Res (Nat × Nat) := do
  let vec ← A.mapM (fun c => coord c index)
  let v ← coord p index
  let first := lowerBound vec v
  if vec.length = 0 then .ub .modZero
  else .ok (first, (first + 1) % vec.length)

end DOA.MathTools
