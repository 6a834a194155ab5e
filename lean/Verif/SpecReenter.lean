import Verif.Model.Reenter
import Verif.SpecBook
/- Vocabulary for calls that interrupt each other. -/
namespace OB.Spec

/-- One after the other: each call of the list is made, alone, in the world that the one before has left, is accepted with exactly the given
response, and each query gets exactly the given result in the world between the calls around it. -/
inductive Sequential (ch : Chain) : World → List Act → World → Prop
  | nil {w} : Sequential ch w [] w
  | did {w w1 w' op resp acts} : step ch w op = .ok (w1, resp) → Sequential ch w1 acts w' → Sequential ch w (.did op resp :: acts) w'
  | saw {w w' q r acts} : queryResult w.store q = r → Sequential ch w acts w' → Sequential ch w (.saw q r :: acts) w'

/-- The calls of the list. -/
def callsOf (acts : List Act) : List Op := acts.filterMap fun x => match x with
  | .did op _ => some op
  | .saw .. => none

end OB.Spec
