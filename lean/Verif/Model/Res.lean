/-!
# Outcomes

C++ calls may return, throw, or run into undefined behaviour.  All three are distinct outcomes.
-/

namespace DOA

/-- The kinds of undefined behaviour the modelled code can run into. -/
inductive UB where
  | nullDeref       -- dereference of an empty `shared_ptr`
  | dangling        -- pointer to no object of the heap
  | indexOOB        -- `operator[]`/`col()`/`erase` outside the container
  | uninitialised   -- read of an indeterminate `double`
  | recursion       -- unbounded recursion
  | modZero         -- integer remainder by zero
  deriving DecidableEq, Repr

/-- Exceptions thrown by the code. -/
inductive Exn where
  /-- `Exceptions::ObstacleAlreadyExistsException`
  (include/.../Exceptions/ObstacleAlreadyExistsException.hpp:11-17). -/
  | alreadyExists (name : String)
  /-- `Exceptions::ObstacleNotInEnvironmentException`
  (include/.../Exceptions/ObstacleNotInEnvironmentException.hpp:11-17). -/
  | notInEnvironment (name : String)
  /-- `throw new std::exception()` of `linspace` (src/Utils/MathTools.cpp:8): the thrown object is a
  *pointer*, so `catch (const std::exception&)` does not catch it. -/
  | linspacePtr
  deriving DecidableEq, Repr

/-- Outcome of a call. -/
inductive Res (β : Type) where
  | ok (b : β)
  | throw (e : Exn)
  | ub (u : UB)
  deriving Repr

namespace Res

/-- Sequencing: exceptions and undefined behaviour end the computation. -/
def bind {β γ : Type} : Res β → (β → Res γ) → Res γ
  | ok b, f => f b
  | throw e, _ => throw e
  | ub u, _ => ub u

instance : Monad Res where
  pure := Res.ok
  bind := Res.bind

/-- The call returned normally. -/
def isOk {β : Type} : Res β → Bool
  | ok _ => true
  | _ => false

@[simp] theorem pure_eq {β : Type} (b : β) : (pure b : Res β) = ok b := rfl
@[simp] theorem ok_bind {β γ : Type} (b : β) (f : β → Res γ) : (ok b >>= f) = f b := rfl
@[simp] theorem throw_bind {β γ : Type} (e : Exn) (f : β → Res γ) : (throw e >>= f) = throw e := rfl
@[simp] theorem ub_bind {β γ : Type} (u : UB) (f : β → Res γ) : (ub u >>= f) = ub u := rfl
@[simp] theorem map_ok {β γ : Type} (b : β) (f : β → γ) : f <$> (ok b) = ok (f b) := rfl
@[simp] theorem map_throw {β γ : Type} (e : Exn) (f : β → γ) : f <$> (throw e : Res β) = throw e := rfl
@[simp] theorem map_ub {β γ : Type} (u : UB) (f : β → γ) : f <$> (ub u : Res β) = ub u := rfl

theorem bind_eq_ok {β γ : Type} {r : Res β} {f : β → Res γ} {c : γ} :
    (r >>= f) = ok c ↔ ∃ b, r = ok b ∧ f b = ok c := by
  cases r with
  | ok b => simp
  | throw e => simp
  | ub u => simp

instance : LawfulMonad Res := LawfulMonad.mk'
  (id_map := by intro _ x; cases x <;> rfl)
  (pure_bind := by intros; rfl)
  (bind_assoc := by intro _ _ _ x f g; cases x <;> rfl)

/-- Read element `i`, out-of-range is undefined behaviour. -/
def index {β : Type} (l : List β) (i : Nat) : Res β :=
  match l[i]? with
  | some b => ok b
  | none => ub .indexOOB

end Res
end DOA
