import Verif.Spec.Promissory
import Verif.Spec.Frame
/-! # Specification: what signing and checking promissory notes says

Each outcome — a verdict, a signature or an exception — has its own rule. -/

namespace Verif.Spec

open Verif

/-- `k` small hexadecimal digits of a number, the most significant first. -/
def smallHex : Nat → Nat → PStr
  | 0, _ => []
  | k + 1, n => smallHex k (n / 16) ++ [p!"0123456789abcdef".getD (n % 16) '0']

/-- What a note is made of, before anything is looked at. -/
structure Terms where
  payer : Val
  payee : Val
  amount : Val
  subtask : Val
  contract : PStr

/-- A value that is an integer (`True` and `False` are). -/
inductive Whole : Val → Int → Prop
  | int (i : Int) : Whole (.int i) i
  | yes : Whole (.bool true) 1
  | no : Whole (.bool false) 0

/-- The text that is hashed: the three addresses without their first two characters, the amount in
64 digits, the subtask's UUID in 32 digits and 32 zeros. -/
inductive Wording (t : Terms) : PStr → Prop
  | mk {frm to sid : PStr} {n u : Nat} : TextValue t.payer frm → TextValue t.payee to →
      Whole t.amount n → n < 2 ^ 256 → TextValue t.subtask sid → UuidText sid u →
      Wording t (p!"0x" ++ t.contract.drop 2 ++ frm.drop 2 ++ to.drop 2 ++ smallHex 64 n ++ smallHex 32 u
        ++ List.replicate 32 '0')

/-- Why there is no such text: the first term that is wrong. -/
inductive Wordless (t : Terms) : Exc → Prop
  | payer : (¬ ∃ s, TextValue t.payer s) → Wordless t .typeError
  | payee {f : PStr} : TextValue t.payer f → (¬ ∃ s, TextValue t.payee s) → Wordless t .typeError
  | amount {f g : PStr} : TextValue t.payer f → TextValue t.payee g → (¬ ∃ i, Whole t.amount i) →
      Wordless t .attributeError
  | range {f g : PStr} {i : Int} : TextValue t.payer f → TextValue t.payee g → Whole t.amount i →
      (i < 0 ∨ 2 ^ 256 ≤ i) → Wordless t .overflowError
  | noId {f g : PStr} {i : Int} : TextValue t.payer f → TextValue t.payee g → Whole t.amount i →
      0 ≤ i → i < 2 ^ 256 → (t.subtask = .none ∨ ∃ b, t.subtask = .bytes b) → Wordless t .typeError
  | badId {f g : PStr} {i : Int} : TextValue t.payer f → TextValue t.payee g → Whole t.amount i →
      0 ≤ i → i < 2 ^ 256 → t.subtask ≠ .none → (∀ b, t.subtask ≠ .bytes b) →
      (¬ ∃ s, TextValue t.subtask s) → Wordless t .attributeError
  | noUuid {f g s : PStr} {i : Int} : TextValue t.payer f → TextValue t.payee g → Whole t.amount i →
      0 ≤ i → i < 2 ^ 256 → TextValue t.subtask s → (¬ ∃ u, UuidText s u) → Wordless t .valueError

/-- The hash of a note. -/
def NoteHash (X : EthEnv) (t : Terms) (h : Bytes) : Prop := ∃ w, Wording t w ∧ X.defunctHash w = .ok h

/-- Why there is no hash. -/
def NoteUnhashed (X : EthEnv) (t : Terms) (e : Exc) : Prop :=
  Wordless t e ∨ ∃ w, Wording t w ∧ X.defunctHash w = .error e

/-- The value has exactly three elements. -/
inductive Three : Val → Val → Val → Val → Prop
  | list (v r s : Val) : Three (.list [v, r, s]) v r s
  | tuple (v r s : Val) : Three (.tuple [v, r, s]) v r s
  | text (a b c : Char) : Three (.str [a, b, c]) (.str [a]) (.str [b]) (.str [c])
  | bytes (a b c : UInt8) : Three (.bytes [a, b, c]) (.int a.toNat) (.int b.toNat) (.int c.toNat)
  | dict (v r s x y z : Val) : Three (.dict [(v, x), (r, y), (s, z)]) v r s
  | record (c : FDictId) (v r s : PStr) (x y z : Val) :
      Three (.fdict c [(v, x), (r, y), (s, z)]) (.str v) (.str r) (.str s)

/-- What checking a note against the signature `sig` says. -/
inductive NoteChecked (X : EthEnv) (t : Terms) (sig : Val) : Res Bool → Prop
  | unsigned : sig.truthy = false → NoteChecked X t sig (.ok false)
  | shape : sig.truthy = true → (¬ ∃ v r s, Three sig v r s) → NoteChecked X t sig (.error .typeError)
  | unhashed {v r s : Val} {e : Exc} : Three sig v r s → NoteUnhashed X t e → NoteChecked X t sig (.error e)
  | unrecovered {v r s : Val} {h : Bytes} {e : Exc} : Three sig v r s → NoteHash X t h →
      X.recoverHash h v r s = .error e → NoteChecked X t sig (.error e)
  | payer {v r s : Val} {h : Bytes} {a : PStr} : Three sig v r s → NoteHash X t h →
      X.recoverHash h v r s = .ok a → TextValue t.payer a → NoteChecked X t sig (.ok true)
  | other {v r s : Val} {h : Bytes} {a : PStr} : Three sig v r s → NoteHash X t h →
      X.recoverHash h v r s = .ok a → ¬ TextValue t.payer a → NoteChecked X t sig (.ok false)

/-- What signing a note gives. -/
inductive NoteSigned (X : EthEnv) (t : Terms) (priv : Bytes) : Res Val → Prop
  | unhashed {e : Exc} : NoteUnhashed X t e → NoteSigned X t priv (.error e)
  | unsigned {h : Bytes} {e : Exc} : NoteHash X t h → X.signHash h priv = .error e →
      NoteSigned X t priv (.error e)
  | big {h : Bytes} {v : Int} {r s : Nat} : NoteHash X t h → X.signHash h priv = .ok (v, r, s) →
      (2 ^ 256 ≤ r ∨ 2 ^ 256 ≤ s) → NoteSigned X t priv (.error .overflowError)
  | signed {h : Bytes} {v : Int} {r s : Nat} {x y : Bytes} : NoteHash X t h →
      X.signHash h priv = .ok (v, r, s) → x.length = 32 → bigEndian x = r → y.length = 32 →
      bigEndian y = s → NoteSigned X t priv (.ok (.tuple [.int v, .bytes x, .bytes y]))

/-- The id of the subtask described by a value: a dictionary, or nothing. -/
inductive DescribedId : Val → Val → Prop
  | entry {d : Val} {items : List (Val × Val)} : d.asDict = some items →
      DescribedId d (dictAttr d p!"subtask_id")
  | nothing {d : Val} : d.truthy = false → DescribedId d .none

/-- The terms of a task's note for the Concent. -/
inductive ConcentTerms (X : EthEnv) (m : Msg) (contract : PStr) : Terms → Prop
  | mk {addr : PStr} {sid : Val} :
      X.address (getAttr m.attrs p!"requestor_ethereum_public_key") = .ok addr →
      DescribedId (getAttr m.attrs p!"compute_task_def") sid →
      ConcentTerms X m contract ⟨.str addr, .str contract, getAttr m.attrs p!"price", sid, contract⟩

/-- Why there are none. -/
inductive ConcentTermless (X : EthEnv) (m : Msg) : Exc → Prop
  | payer {e : Exc} : X.address (getAttr m.attrs p!"requestor_ethereum_public_key") = .error e →
      ConcentTermless X m e

/-- The terms of a task's note for the provider. -/
inductive ProviderTerms (X : EthEnv) (m : Msg) (contract : PStr) : Terms → Prop
  | mk {addr : PStr} {offer : Msg} {sid : Val} :
      X.address (getAttr m.attrs p!"requestor_ethereum_public_key") = .ok addr →
      getAttr m.attrs p!"want_to_compute_task" = offer.val →
      DescribedId (getAttr m.attrs p!"compute_task_def") sid →
      ProviderTerms X m contract ⟨.str addr, getAttr offer.attrs p!"provider_ethereum_address",
        getAttr m.attrs p!"price", sid, contract⟩

/-- Why there are none. -/
inductive ProviderTermless (X : EthEnv) (m : Msg) : Exc → Prop
  | payer {e : Exc} : X.address (getAttr m.attrs p!"requestor_ethereum_public_key") = .error e →
      ProviderTermless X m e
  | offer {addr : PStr} : X.address (getAttr m.attrs p!"requestor_ethereum_public_key") = .ok addr →
      (∀ offer : Msg, getAttr m.attrs p!"want_to_compute_task" ≠ offer.val) →
      ProviderTermless X m .attributeError

/-- What checking the note for the Concent says. -/
inductive ConcentVerdict (X : EthEnv) (m : Msg) (contract : PStr) : Res Bool → Prop
  | termless {e : Exc} : ConcentTermless X m e → ConcentVerdict X m contract (.error e)
  | checked {t : Terms} {o : Res Bool} : ConcentTerms X m contract t →
      NoteChecked X t (getAttr m.attrs p!"concent_promissory_note_sig") o → ConcentVerdict X m contract o

/-- What checking the note for the provider says. -/
inductive ProviderVerdict (X : EthEnv) (m : Msg) (contract : PStr) : Res Bool → Prop
  | termless {e : Exc} : ProviderTermless X m e → ProviderVerdict X m contract (.error e)
  | checked {t : Terms} {o : Res Bool} : ProviderTerms X m contract t →
      NoteChecked X t (getAttr m.attrs p!"promissory_note_sig") o → ProviderVerdict X m contract o

/-- What checking both says: the note for the Concent comes first. -/
inductive BothVerdict (X : EthEnv) (m : Msg) (contract : PStr) : Res Bool → Prop
  | concent {o : Res Bool} : ConcentVerdict X m contract o → o ≠ .ok true → BothVerdict X m contract o
  | provider {o : Res Bool} : ConcentVerdict X m contract (.ok true) → ProviderVerdict X m contract o →
      BothVerdict X m contract o

/-- The signature, or why there is none, of the note for the Concent. -/
inductive ConcentSignature (X : EthEnv) (m : Msg) (contract : PStr) (priv : Bytes) : Res Val → Prop
  | termless {e : Exc} : ConcentTermless X m e → ConcentSignature X m contract priv (.error e)
  | signed {t : Terms} {o : Res Val} : ConcentTerms X m contract t → NoteSigned X t priv o →
      ConcentSignature X m contract priv o

/-- The signature, or why there is none, of the note for the provider. -/
inductive ProviderSignature (X : EthEnv) (m : Msg) (contract : PStr) (priv : Bytes) : Res Val → Prop
  | termless {e : Exc} : ProviderTermless X m e → ProviderSignature X m contract priv (.error e)
  | signed {t : Terms} {o : Res Val} : ProviderTerms X m contract t → NoteSigned X t priv o →
      ProviderSignature X m contract priv o

/-- The message with one attribute set. -/
def With (m : Msg) (name : PStr) (v : Val) : Msg := { m with attrs := setName name v m.attrs }

/-- What signing both does, and the message afterwards. -/
inductive BothSigned (X : EthEnv) (m : Msg) (contract : PStr) (priv : Bytes) : Res Unit → Msg → Prop
  | none {e : Exc} : ConcentSignature X m contract priv (.error e) →
      BothSigned X m contract priv (.error e) m
  | half {s : Val} {e : Exc} : ConcentSignature X m contract priv (.ok s) →
      ProviderSignature X m contract priv (.error e) →
      BothSigned X m contract priv (.error e) (With m p!"concent_promissory_note_sig" s)
  | both {s p : Val} : ConcentSignature X m contract priv (.ok s) →
      ProviderSignature X m contract priv (.ok p) →
      BothSigned X m contract priv (.ok ())
        (With (With m p!"concent_promissory_note_sig" s) p!"promissory_note_sig" p)

/-- The terms of a result's note: the provider pays, the task `t` says how much. -/
inductive ResultTerms (t : Msg) (contract : PStr) : Terms → Prop
  | mk {offer : Msg} {sid : Val} : getAttr t.attrs p!"want_to_compute_task" = offer.val →
      DescribedId (getAttr t.attrs p!"compute_task_def") sid →
      ResultTerms t contract ⟨getAttr offer.attrs p!"provider_ethereum_address", .str contract,
        getAttr t.attrs p!"price", sid, contract⟩

/-- Why there are none. -/
inductive ResultTermless (t : Msg) : Exc → Prop
  | offer : (∀ offer : Msg, getAttr t.attrs p!"want_to_compute_task" ≠ offer.val) →
      ResultTermless t .attributeError

end Verif.Spec
