import Verif.Model.Eigen

/-!
# Pose and State (src/State/Pose.cpp, src/State/State.cpp and their headers)
-/

namespace DOA

variable {α : Type} [Add α] [Sub α] [Mul α] [Div α] [Neg α] [Zero α] [One α]
  [LE α] [LT α] [DecidableLE α] [DecidableLT α] [CMath α]

/-- class `Pose` (include/.../State/Pose.hpp:17-21). -/
@[ext] structure Pose (α : Type) where
  position : V3 α
  orientation : Quat α
  deriving Repr

namespace Pose

/-- `Pose::Pose()` (src/State/Pose.cpp:5-6). -/
def default : Pose α := ⟨V3.zero, Quat.one⟩

/-- `Pose::Pose(const Vector3d&)` and `Pose(x,y,z)` (src/State/Pose.cpp:8-9, 18-20). -/
def ofPosition (p : V3 α) : Pose α := ⟨p, Quat.one⟩

/-- The body shared by the two constructors with an orientation (src/State/Pose.cpp:14-15, 25-26):
`if(norm - 1 < 1e-4) normalize(); if(w < 0) negate`.  Note the missing `abs`: a quaternion of norm
above 1.0001 is kept as it is. -/
def fixOrientation (q : Quat α) : Quat α :=
  let q1 := if q.norm - 1 < lit 1 10000 then q.normalized else q
  if q1.w < 0 then ⟨-q1.w, -q1.x, -q1.y, -q1.z⟩ else q1

/-- `Pose::Pose(position, orientation)` (src/State/Pose.cpp:11-16). -/
def mk2 (p : V3 α) (q : Quat α) : Pose α := ⟨p, fixOrientation q⟩

/-- `Pose::Pose(px,py,pz,qw,qx,qy,qz)` (src/State/Pose.cpp:22-27).  The *definition* takes the
quaternion as `w,x,y,z`; the declaration in Pose.hpp:28 names the parameters `qx,qy,qz,qw`. -/
def mk7 (px py pz qw qx qy qz : α) : Pose α := ⟨⟨px, py, pz⟩, fixOrientation ⟨qw, qx, qy, qz⟩⟩

/-- `set_position` (Pose.hpp:41-49). -/
def setPosition (p : Pose α) (v : V3 α) : Pose α := { p with position := v }

/-- `set_orientation` (Pose.hpp:51-54): stores `orientation.normalized()`. -/
def setOrientation (p : Pose α) (q : Quat α) : Pose α := { p with orientation := q.normalized }

/-- `operator*=(const Pose&)` (Pose.hpp:56-61): first the position (using the old orientation),
then the orientation. The argument is a reference; the aliased call is
`mulAssignSelf` below. -/
def mulAssign (self p : Pose α) : Pose α :=
  let self1 := { self with position := self.position + self.orientation.rotate p.position }
  { self1 with orientation := self1.orientation.mul p.orientation }

/-- `p *= p` (Pose.hpp:56-61 with the argument aliasing `*this`): the second statement reads the
orientation of the already updated object. -/
def mulAssignSelf (self : Pose α) : Pose α :=
  let self1 := { self with position := self.position + self.orientation.rotate self.position }
  { self1 with orientation := self1.orientation.mul self1.orientation }

/-- `operator*(const Pose&)` (Pose.hpp:63-68): copy, then `*=`. The copy constructor
(src/State/Pose.cpp:29-31) does not re-normalise. -/
def mul (self p : Pose α) : Pose α := mulAssign self p

/-- `operator*(const Vector3d&)` (Pose.hpp:70-73). -/
def apply (self : Pose α) (v : V3 α) : V3 α := self.orientation.rotate v + self.position

/-- `inverse()` (Pose.hpp:92-98). -/
def inverse (self : Pose α) : Pose α :=
  let o := self.orientation.conjugate
  { position := o.rotate (-self.position), orientation := o }

end Pose

/-- class `State` (include/.../State/State.hpp:17-22). -/
@[ext] structure State (α : Type) where
  pose : Pose α
  linearVelocity : V3 α
  angularVelocity : V3 α
  deriving Repr

namespace State

/-- `State::State()` (src/State/State.cpp:5-7). -/
def default : State α := ⟨Pose.default, V3.zero, V3.zero⟩
/-- `State(const Pose&)` (src/State/State.cpp:9-11). -/
def ofPose (p : Pose α) : State α := ⟨p, V3.zero, V3.zero⟩
/-- `State(x,y,z)` and `State(position)` (src/State/State.cpp:13-19). -/
def ofPosition (p : V3 α) : State α := ⟨Pose.ofPosition p, V3.zero, V3.zero⟩
/-- `State(position, orientation)` (src/State/State.cpp:21-23). -/
def mk2 (p : V3 α) (q : Quat α) : State α := ⟨Pose.mk2 p q, V3.zero, V3.zero⟩
/-- `State(position, orientation, linear, angular)` (src/State/State.cpp:25-27). -/
def mk4 (p : V3 α) (q : Quat α) (v w : V3 α) : State α := ⟨Pose.mk2 p q, v, w⟩
/-- getter `get_position` (State.hpp:37-40). -/
def position (s : State α) : V3 α := s.pose.position
/-- getter `get_orientation` (State.hpp:42-45). -/
def orientation (s : State α) : Quat α := s.pose.orientation
/-- `set_pose` (State.hpp:57-60). -/
def setPose (s : State α) (p : Pose α) : State α := { s with pose := p }
/-- `set_position` (State.hpp:62-70). -/
def setPosition (s : State α) (v : V3 α) : State α := { s with pose := s.pose.setPosition v }
/-- `set_orientation` (State.hpp:72-75). -/
def setOrientation (s : State α) (q : Quat α) : State α := { s with pose := s.pose.setOrientation q }
/-- `set_linear_velocity` (State.hpp:77-80). -/
def setLinearVelocity (s : State α) (v : V3 α) : State α := { s with linearVelocity := v }
/-- `set_angular_velocity` (State.hpp:82-85). -/
def setAngularVelocity (s : State α) (v : V3 α) : State α := { s with angularVelocity := v }

end State
end DOA
