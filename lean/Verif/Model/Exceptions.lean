import Verif.Model.Res

/-!
# What a handler of an exception sees
-/

namespace DOA

namespace Exn

/-- The text given to `std::runtime_error` (include/.../Exceptions/ObstacleAlreadyExistsException.hpp:14-16,
ObstacleNotInEnvironmentException.hpp:14-16).  `none`: `linspace` throws a pointer (src/Utils/MathTools.cpp:8), for which
`catch (const std::exception&)` is no handler. -/
def message : Exn → Option String
  | .alreadyExists n => some ("Obstacle " ++ n ++ " already exists in the environment")
  | .notInEnvironment n => some ("Obstacle " ++ n ++ " is not in the environment")
  | .linspacePtr => none

/-- The characters that `what()` points to, up to the terminating zero. -/
def what (e : Exn) : Option (List Char) := e.message.map fun s => s.toList.takeWhile (· ≠ '\x00')

end Exn
end DOA
