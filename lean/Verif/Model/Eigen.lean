import Verif.Model.Scalar

/-!
# The part of Eigen the code uses (Eigen 3.3 semantics)

`Vector3d`/`Array3d` are both `V3`; `Vector2d` is `V2`; `Matrix3d` is `M3`, stored by columns;
`Quaterniond` is `Quat`.  Evaluation order of sums is left to right as in the unvectorised Eigen
code; over `ℝ` the order is irrelevant.
-/

namespace DOA

section

variable {α : Type} [Add α] [Sub α] [Mul α] [Div α] [Neg α] [Zero α] [One α]
  [LE α] [LT α] [DecidableLE α] [DecidableLT α] [CMath α]

/-- `Eigen::Vector3d` / `Eigen::Array3d`. -/
@[ext] structure V3 (α : Type) where
  x : α
  y : α
  z : α
  deriving Repr

/-- `Eigen::Vector2d`. -/
@[ext] structure V2 (α : Type) where
  x : α
  y : α
  deriving Repr

namespace V3

/-- `Vector3d::Zero()`. -/
def zero : V3 α := ⟨0, 0, 0⟩
/-- `Array3d(s, s, s)`. -/
def const (s : α) : V3 α := ⟨s, s, s⟩
def add (a b : V3 α) : V3 α := ⟨a.x + b.x, a.y + b.y, a.z + b.z⟩
def sub (a b : V3 α) : V3 α := ⟨a.x - b.x, a.y - b.y, a.z - b.z⟩
def neg (a : V3 α) : V3 α := ⟨-a.x, -a.y, -a.z⟩
/-- scalar times vector. -/
def smul (s : α) (a : V3 α) : V3 α := ⟨s * a.x, s * a.y, s * a.z⟩
/-- vector divided by scalar. -/
def sdiv (a : V3 α) (s : α) : V3 α := ⟨a.x / s, a.y / s, a.z / s⟩
/-- `a.dot(b)`, also `(a.array() * b.array()).sum()`. -/
def dot (a b : V3 α) : α := a.x * b.x + a.y * b.y + a.z * b.z
def cross (a b : V3 α) : V3 α :=
  ⟨a.y * b.z - a.z * b.y, a.z * b.x - a.x * b.z, a.x * b.y - a.y * b.x⟩
/-- `a.squaredNorm()`. -/
def sqNorm (a : V3 α) : α := dot a a
/-- `a.norm()`. -/
def norm (a : V3 α) : α := CMath.sqrt (sqNorm a)
/-- `a.normalized()` / `a.normalize()`: Eigen 3.3 divides only if the squared norm is positive. -/
def normalized (a : V3 α) : V3 α :=
  if (0 : α) < sqNorm a then sdiv a (CMath.sqrt (sqNorm a)) else a
def unitX : V3 α := ⟨1, 0, 0⟩
def unitY : V3 α := ⟨0, 1, 0⟩
def unitZ : V3 α := ⟨0, 0, 1⟩
/-- `a.hasNaN()`. -/
def hasNaN (a : V3 α) : Bool := CMath.isNaN a.x || CMath.isNaN a.y || CMath.isNaN a.z

instance : Add (V3 α) := ⟨add⟩
instance : Sub (V3 α) := ⟨sub⟩
instance : Neg (V3 α) := ⟨neg⟩

end V3

namespace V2

def zero : V2 α := ⟨0, 0⟩
def add (a b : V2 α) : V2 α := ⟨a.x + b.x, a.y + b.y⟩
/-- `a *= s`. -/
def scale (a : V2 α) (s : α) : V2 α := ⟨a.x * s, a.y * s⟩
def sqNorm (a : V2 α) : α := a.x * a.x + a.y * a.y
def norm (a : V2 α) : α := CMath.sqrt (sqNorm a)
/-- `a.normalize()`. -/
def normalized (a : V2 α) : V2 α :=
  if (0 : α) < sqNorm a then ⟨a.x / CMath.sqrt (sqNorm a), a.y / CMath.sqrt (sqNorm a)⟩ else a

end V2

/-- `Eigen::Matrix3d` by columns; `m << a, b, c` with three column vectors is `⟨a, b, c⟩`. -/
@[ext] structure M3 (α : Type) where
  c0 : V3 α
  c1 : V3 α
  c2 : V3 α
  deriving Repr

namespace M3

/-- matrix times vector. -/
def mulVec (m : M3 α) (v : V3 α) : V3 α :=
  ⟨m.c0.x * v.x + m.c1.x * v.y + m.c2.x * v.z,
   m.c0.y * v.x + m.c1.y * v.y + m.c2.y * v.z,
   m.c0.z * v.x + m.c1.z * v.y + m.c2.z * v.z⟩
/-- matrix product. -/
def mul (m n : M3 α) : M3 α := ⟨mulVec m n.c0, mulVec m n.c1, mulVec m n.c2⟩
def transpose (m : M3 α) : M3 α :=
  ⟨⟨m.c0.x, m.c1.x, m.c2.x⟩, ⟨m.c0.y, m.c1.y, m.c2.y⟩, ⟨m.c0.z, m.c1.z, m.c2.z⟩⟩
/-- matrix times `DiagonalMatrix<double,3>`: scales the columns. -/
def mulDiag (m : M3 α) (d : V3 α) : M3 α :=
  ⟨⟨m.c0.x * d.x, m.c0.y * d.x, m.c0.z * d.x⟩,
   ⟨m.c1.x * d.y, m.c1.y * d.y, m.c1.z * d.y⟩,
   ⟨m.c2.x * d.z, m.c2.y * d.z, m.c2.z * d.z⟩⟩
/-- the determinant as the 3x3 inverse of Eigen computes it: first column of cofactors times first
column of the matrix. -/
def det (m : M3 α) : α :=
  (m.c1.y * m.c2.z - m.c2.y * m.c1.z) * m.c0.x +
  (m.c2.x * m.c1.z - m.c1.x * m.c2.z) * m.c0.y +
  (m.c1.x * m.c2.y - m.c2.x * m.c1.y) * m.c0.z
/-- `m.inverse()` (Eigen `compute_inverse` size 3): cofactors times `1/det`, no singularity check. -/
def inverse (m : M3 α) : M3 α :=
  let i := 1 / det m
  ⟨⟨(m.c1.y * m.c2.z - m.c2.y * m.c1.z) * i,
    (m.c2.y * m.c0.z - m.c0.y * m.c2.z) * i,
    (m.c0.y * m.c1.z - m.c1.y * m.c0.z) * i⟩,
   ⟨(m.c2.x * m.c1.z - m.c1.x * m.c2.z) * i,
    (m.c0.x * m.c2.z - m.c2.x * m.c0.z) * i,
    (m.c1.x * m.c0.z - m.c0.x * m.c1.z) * i⟩,
   ⟨(m.c1.x * m.c2.y - m.c2.x * m.c1.y) * i,
    (m.c2.x * m.c0.y - m.c0.x * m.c2.y) * i,
    (m.c0.x * m.c1.y - m.c1.x * m.c0.y) * i⟩⟩

end M3

/-- `Eigen::Quaterniond`; constructor order `(w, x, y, z)`. -/
@[ext] structure Quat (α : Type) where
  w : α
  x : α
  y : α
  z : α
  deriving Repr

namespace Quat

/-- `Quaterniond(1,0,0,0)`. -/
def one : Quat α := ⟨1, 0, 0, 0⟩
/-- `q.vec()`. -/
def vec (q : Quat α) : V3 α := ⟨q.x, q.y, q.z⟩
def sqNorm (q : Quat α) : α := q.x * q.x + q.y * q.y + q.z * q.z + q.w * q.w
/-- `q.norm()`. -/
def norm (q : Quat α) : α := CMath.sqrt (sqNorm q)
/-- `q.normalized()` / `q.normalize()`: divides only if the squared norm is positive. -/
def normalized (q : Quat α) : Quat α :=
  if (0 : α) < sqNorm q then
    ⟨q.w / CMath.sqrt (sqNorm q), q.x / CMath.sqrt (sqNorm q),
     q.y / CMath.sqrt (sqNorm q), q.z / CMath.sqrt (sqNorm q)⟩
  else q
def conjugate (q : Quat α) : Quat α := ⟨q.w, -q.x, -q.y, -q.z⟩
/-- Hamilton product. -/
def mul (a b : Quat α) : Quat α :=
  ⟨a.w * b.w - a.x * b.x - a.y * b.y - a.z * b.z,
   a.w * b.x + a.x * b.w + a.y * b.z - a.z * b.y,
   a.w * b.y + a.y * b.w + a.z * b.x - a.x * b.z,
   a.w * b.z + a.z * b.w + a.x * b.y - a.y * b.x⟩
/-- `q * v` (Eigen `_transformVector`): `uv = 2 * vec × v; v + w * uv + vec × uv`. -/
def rotate (q : Quat α) (v : V3 α) : V3 α :=
  let u := V3.cross q.vec v
  let uv := u + u
  v + V3.smul q.w uv + V3.cross q.vec uv
/-- `q.toRotationMatrix()`, used by Eigen for `quaternion * matrix` and `matrix * quaternion`. -/
def toM3 (q : Quat α) : M3 α :=
  let tx := lit 2 1 * q.x
  let ty := lit 2 1 * q.y
  let tz := lit 2 1 * q.z
  let twx := tx * q.w
  let twy := ty * q.w
  let twz := tz * q.w
  let txx := tx * q.x
  let txy := ty * q.x
  let txz := tz * q.x
  let tyy := ty * q.y
  let tyz := tz * q.y
  let tzz := tz * q.z
  ⟨⟨1 - (tyy + tzz), txy + twz, txz - twy⟩,
   ⟨txy - twz, 1 - (txx + tzz), tyz + twx⟩,
   ⟨txz + twy, tyz - twx, 1 - (txx + tyy)⟩⟩
/-- `q.inverse()`: conjugate over squared norm, the zero quaternion if that is not positive. -/
def inverse (q : Quat α) : Quat α :=
  if (0 : α) < sqNorm q then
    ⟨q.w / sqNorm q, -q.x / sqNorm q, -q.y / sqNorm q, -q.z / sqNorm q⟩
  else ⟨0, 0, 0, 0⟩
/-- `Quaterniond(AngleAxisd(theta, UnitZ()))`. -/
def ofAngleZ (theta : α) : Quat α :=
  ⟨CMath.cos (lit 1 2 * theta), CMath.sin (lit 1 2 * theta) * 0,
   CMath.sin (lit 1 2 * theta) * 0, CMath.sin (lit 1 2 * theta) * 1⟩
/-- `AngleAxisd(q)`: angle and axis (Eigen 3.3: `n = |vec|; angle = 2 atan2(n, |w|);`
`if w < 0 then n = -n; axis = vec / n`, and angle 0, axis x when `n == 0`).
Simplification: the `stableNorm` fallback for `n < eps` is an overflow/underflow measure and is
omitted. -/
def toAngleAxis (q : Quat α) : α × V3 α :=
  let n := V3.norm q.vec
  if n < 0 ∨ 0 < n then
    let n' := if q.w < 0 then -n else n
    (lit 2 1 * CMath.atan2 n (absS q.w), V3.sdiv q.vec n')
  else (0, V3.unitX)

end Quat

end

namespace V3

@[simp] theorem add_x {α : Type} [Add α] (a b : V3 α) : (a + b).x = a.x + b.x := rfl
@[simp] theorem add_y {α : Type} [Add α] (a b : V3 α) : (a + b).y = a.y + b.y := rfl
@[simp] theorem add_z {α : Type} [Add α] (a b : V3 α) : (a + b).z = a.z + b.z := rfl
@[simp] theorem sub_x {α : Type} [Sub α] (a b : V3 α) : (a - b).x = a.x - b.x := rfl
@[simp] theorem sub_y {α : Type} [Sub α] (a b : V3 α) : (a - b).y = a.y - b.y := rfl
@[simp] theorem sub_z {α : Type} [Sub α] (a b : V3 α) : (a - b).z = a.z - b.z := rfl
@[simp] theorem neg_x {α : Type} [Neg α] (a : V3 α) : (-a).x = -a.x := rfl
@[simp] theorem neg_y {α : Type} [Neg α] (a : V3 α) : (-a).y = -a.y := rfl
@[simp] theorem neg_z {α : Type} [Neg α] (a : V3 α) : (-a).z = -a.z := rfl

end V3
end DOA
