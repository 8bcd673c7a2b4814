import Verif.Model.Frame
/-! # Specification: nodes that pass messages on -/

namespace Verif.Spec

open Verif

/-- A node gets the frame `b`, loads it, with whatever keys and clock, and sends the message on
unencrypted as the frame `b'`. -/
def Hop (E : Env) (encrypt dec : Bytes → Bytes → Res Bytes) (b b' : Bytes) : Prop :=
  ∃ priv pub ct now key m m', (load E dec (some b) priv pub ct now).2 = .ok m ∧
    dump E encrypt m key none = (.ok b', m')

/-- Any number of such nodes in a row. -/
inductive Hops (E : Env) (encrypt dec : Bytes → Bytes → Res Bytes) : Bytes → Bytes → Prop
  | here (b : Bytes) : Hops E encrypt dec b b
  | next {a b c : Bytes} : Hop E encrypt dec a b → Hops E encrypt dec b c → Hops E encrypt dec a c

end Verif.Spec
