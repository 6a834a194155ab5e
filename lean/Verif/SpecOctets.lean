import Verif.Model.Octets
import Verif.SpecLive
/-
Bytes instead of texts (C105): UTF-8 (RFC 3629, as Lean's library defines it for one character) character by character.
-/
namespace OB.Spec

/-- `b` is the UTF-8 encoding of the text `t`. -/
def Utf8 (t : List Char) (b : Bytes) : Prop := b = (t.map String.utf8EncodeChar).flatten

/-- The call `c` in bytes: its message is the encoding of `c`'s text, all else is the same. -/
def Encodes : Call → OctetCall → Prop
  | .execute sender funds time t, .execute sender' funds' time' b => sender' = sender ∧ funds' = funds ∧ time' = time ∧ Utf8 t b
  | .sudo time t, .sudo time' b => time' = time ∧ Utf8 t b
  | .query t, .query b => Utf8 t b
  | .migrate, .migrate => True
  | .mint dst c, .mint dst' c' => dst' = dst ∧ c' = c
  | .transfer src dst c, .transfer src' dst' c' => src' = src ∧ dst' = dst ∧ c' = c
  | _, _ => False

/-- The reply `r` in bytes. -/
def EncodesReply : Reply → OctetReply → Prop
  | .response raw msgs none, .response raw' msgs' none => raw' = raw ∧ msgs' = msgs
  | .response raw msgs (some t), .response raw' msgs' (some b) => raw' = raw ∧ msgs' = msgs ∧ Utf8 t b
  | .answer t, .answer b => Utf8 t b
  | .refusal t, .refusal t' => t' = t
  | _, _ => False

/-- A session of the reference exchange (Verif/SpecLive.lean) in bytes: messages that are not UTF-8 are refused and change nothing. -/
inductive OctetSession (ch : Chain) : Ref → Marks → List OctetCall → List OctetReply → Ref → Marks → Prop
  | done {r : Ref} {m : Marks} : OctetSession ch r m [] [] r m
  | call {r r1 r2 : Ref} {m m1 m2 : Marks} {c : Call} {reply : Reply} {o : OctetCall} {oreply : OctetReply} {os : List OctetCall}
      {oreplies : List OctetReply} (ho : Encodes c o) (h : Serves ch r m c reply r1 m1) (hr : EncodesReply reply oreply)
      (hs : OctetSession ch r1 m1 os oreplies r2 m2) : OctetSession ch r m (o :: os) (oreply :: oreplies) r2 m2
  | noise {r r2 : Ref} {m m2 : Marks} {o : OctetCall} {os : List OctetCall} {oreplies : List OctetReply} (ho : ∀ c, ¬ Encodes c o)
      (hs : OctetSession ch r m os oreplies r2 m2) : OctetSession ch r m (o :: os) (.refusal none :: oreplies) r2 m2

/-- Senders are addresses and block times are `u64` nanoseconds. -/
def OctetCall.Sane : OctetCall → Prop
  | .execute sender _ time _ => AddrOk sender ∧ IdOk time
  | _ => True

/-- The bytes `r` hold exactly the cell contents `F`: they are sorted by key, every key is a cell's, and every cell's key has the cell's content. -/
structure HoldsBytes (r : Octets) (F : Cell → Option Bytes) : Prop where
  sorted : SMap.Sorted r
  cells : ∀ k b, (k, b) ∈ r → ∃ c, CellOk c ∧ k = c.key
  load : ∀ c, CellOk c → SMap.get? r c.key = F c

/-- The bytes `r` hold exactly the state `s`, every value encoded, and cw2's record `info`. -/
def HoldsOctets (info : Option Bytes) (r : Octets) (s : Store) : Prop :=
  HoldsBytes r fun c => if c = .contractInfo then info else (s.cell none c).map c.octets

/-- An optional `Item`: saved or removed. -/
def optOctets (r : Octets) (c : Cell) : Option Addr → Octets
  | some a => r.save c (.addr a)
  | none => r.remove c

/-- The effect of a write (Verif/SpecStore.lean) on the bytes. -/
def Write.octets (r : Octets) : Write → Octets
  | .orderId n => r.save .orderId (.nat n)
  | .orderbook b => r.save .orderbook (.book b)
  | .isActive b => r.save .isActive (.bool b)
  | .makerFee x => r.save .makerFee (.nat x)
  | .makerFeeRecipient a => r.save .makerFeeRecipient (.addr a)
  | .admin a => optOctets r .admin a
  | .adminOffer a => optOctets r .adminOffer a
  | .moderator a => optOctets r .moderator a
  | .moderatorOffer a => optOctets r .moderatorOffer a
  | .tick t x => r.save (.tick t) (.tick x)
  | .dirLiq d x => r.save (.dirLiq d) (.nat x)
  | .saveOrder k o => r.saveOrder k o
  | .removeOrder k => r.removeOrder k
  | .node n => r.save (.node n.tickId n.key) (.node n)
  | .dropNode t i => r.remove (.node t i)
  | .root t d i => r.save (.root t d) (.nat i)
  | .counter t n => r.save (.counter t) (.nat n)

end OB.Spec
