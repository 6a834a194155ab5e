import Verif.SpecEcon
/- Vocabulary for the statement that without new orders a market only gets worse. -/
namespace OB.Spec

/-- The operation is a message that places a limit order on `side`. -/
def Op.adds (op : Op) (side : Dir) : Prop :=
  ∃ sender funds time tick quantity bounty, op = .execute sender funds time (.placeLimit tick side quantity bounty)

end OB.Spec
