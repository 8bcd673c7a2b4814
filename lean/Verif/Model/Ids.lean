import Verif.Model.Hex
/-! # The ids a process generates one after the other -/

namespace Verif

/-- The time stamp `uuid.uuid1` uses: the clock's, or the successor of the last one used if the
clock has not advanced (Python's `uuid` module keeps `_last_timestamp`; called by
`idgenerator.py:15, 29`). -/
def nextStamp (last : Option Nat) (now : Nat) : Nat :=
  match last with
  | some l => if now ≤ l then l + 1 else now
  | none => now

/-- A call of the id generator. -/
inductive IdCall where
  /-- `generate_id(seed)`, `idgenerator.py:9-15` -/
  | fromSeed (seed : Bytes)
  /-- `generate_id_from_hex(hex_seed)`, `idgenerator.py:18-20` -/
  | fromHex (hexSeed : Val)
  /-- `generate_new_id_from_id(id_)`, `idgenerator.py:23-29` -/
  | fromId (id : PStr)

/-- One call at clock reading `now` with the random clock sequence `cs`: the result and the
last time stamp afterwards (a call that fails does so before it reaches `uuid1`). -/
def idCall (last : Option Nat) (now cs : Nat) (c : IdCall) : Res PStr × Option Nat :=
  let ts := nextStamp last now
  let r : Res PStr := match c with
    | .fromSeed seed => .ok (generateId ts cs seed)
    | .fromHex h => generateIdFromHex ts cs h
    | .fromId id => generateNewIdFromId ts cs id
  match r with
  | .ok s => (.ok s, some ts)
  | .error e => (.error e, last)

/-- The ids generated by the calls of a process, in order; failed calls give none. -/
def idRun : Option Nat → List (Nat × Nat × IdCall) → List PStr
  | _, [] => []
  | last, (now, cs, c) :: rest =>
    match idCall last now cs c with
    | (.ok s, last') => s :: idRun last' rest
    | (.error _, last') => idRun last' rest

end Verif
