import Verif.SpecErr
import Verif.SpecAuth
/- Vocabulary for the statements about rejected configuration messages. -/
namespace OB.Spec

/-- The reason given if the argument of a configuration message is not acceptable. -/
def badArgument : AuthMsg → Err
  | .setMakerFee _ => .invalidMakerFee
  | .setMakerFeeRecipient _ => .invalidMakerFeeRecipient
  | _ => .std

/-- The governance calls that are not swaps, and whether their argument is acceptable. -/
def GovCall (valid : Addr → Bool) : SudoMsg → Option Bool
  | .transferAdmin a => some (valid a)
  | .removeAdmin => some true
  | .setActive _ => some true
  | _ => none

end OB.Spec
