import Verif.Model.Message
/-! # Showing a message -/

namespace Verif

/-- What `Message.__repr__` (`message/base.py:160-171`) puts in the place of the slots: the list
`slots()`, or `<unserializable>` (here `none`) if that raises `FieldError`; no other exception is
caught.  Header and signature are read with a default, and `Hello.__repr__` (lines 697-701) adds the
version in the same way, so nothing else can fail; the text itself is left out. -/
def Msg.reprSlots (m : Msg) : Res (Option Val) :=
  match m.slots with
  | .ok v => .ok (some v)
  | .error e => if e.isFieldError then .ok none else .error e

end Verif
