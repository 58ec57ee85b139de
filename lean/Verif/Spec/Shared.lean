import Verif.Model.Shared
/-! What is seen of a body that is read by a task of its own, and of the server beside it. -/

namespace Tophat.Spec

/-- The results of the task's reads. -/
def taskReads : List TurnSeen → List RPoll
  | [] => []
  | .task _ p :: l => p :: taskReads l
  | .server _ :: l => taskReads l

/-- What the server does. -/
def serverSeen : List TurnSeen → List (List Event)
  | [] => []
  | .task _ _ :: l => serverSeen l
  | .server ev :: l => ev :: serverSeen l

/-- The sizes of the reads of the task. -/
def taskSizes : List Turn → List Nat
  | [] => []
  | .task k :: l => k :: taskSizes l
  | .server :: l => taskSizes l

/-- The schedule without the task. -/
def serverOnly : List Turn → List Turn
  | [] => []
  | .task _ :: l => serverOnly l
  | .server :: l => .server :: serverOnly l

/-- Reads of the given sizes from a memory that contains `bs`: each gives the next bytes, and after the end nothing. -/
def slices (bs : Bytes) : List Nat → List RPoll
  | [] => []
  | k :: ks => .data (bs.take k) :: slices (bs.drop k) ks

end Tophat.Spec
