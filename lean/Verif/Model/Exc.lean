/-!
# Exceptions as values

Models `golem_messages/exceptions.py:1-70` (the `MessageError` hierarchy) and the
builtin exceptions that can escape from, or are caught by, the modelled code.

Simplifications: exception messages are dropped, except for the `field` of
`FieldError` (`exceptions.py:13-26`), which callers can read.
-/

namespace Verif

/-- Python `str` as its list of code points.  Simplification: lone surrogates
(which cannot be encoded to UTF-8 anyway) are not representable. -/
abbrev PStr := List Char

/-- Python `bytes`. -/
abbrev Bytes := List UInt8

open Lean in
/-- `p!"abc"` is the `PStr` literal `['a', 'b', 'c']`. -/
macro:max "p!" s:str : term => do
  let cs := (s.getString.toList.map fun c => Syntax.mkCharLit c).toArray
  `(([$[$cs],*] : List Char))

/-- Exceptions (`golem_messages/exceptions.py:1-70` and Python builtins). -/
inductive Exc where
  -- golem_messages.exceptions
  | messageError
  | headerError
  | timestampError
  | fieldError (field : PStr)
  | messageTooOld
  | messageFromFuture
  | cryptoError
  | invalidSignature
  | invalidKeys
  | decryptionError
  | serializationError
  | signatureAlreadyExists
  | versionMismatch
  | ownershipMismatch
  | validationError
  -- builtins / third party
  | typeError
  | valueError
  | keyError
  | indexError
  | attributeError
  | assertionError
  | runtimeError
  | overflowError
  | zeroDivisionError
  | structError
  | binasciiError      -- subclass of ValueError
  | otherError         -- any other `Exception` raised by third-party code
  | recursionError
  deriving DecidableEq, Repr

/-- `isinstance(e, exceptions.MessageError)`; `exceptions.py:1-70`. -/
def Exc.isMessageError : Exc → Bool
  | .messageError | .headerError | .timestampError | .fieldError _ | .messageTooOld
  | .messageFromFuture | .cryptoError | .invalidSignature | .invalidKeys
  | .decryptionError | .serializationError | .signatureAlreadyExists
  | .versionMismatch | .ownershipMismatch | .validationError => true
  | _ => false

/-- `isinstance(e, exceptions.FieldError)`; `exceptions.py:13`. -/
def Exc.isFieldError : Exc → Bool
  | .fieldError _ => true
  | _ => false

/-- `isinstance(e, ValueError)` for the builtins that matter here
(`binascii.Error` and `UnicodeError` derive from `ValueError`). -/
def Exc.isValueError : Exc → Bool
  | .valueError | .binasciiError => true
  | _ => false

/-- The result of a Python call: a value or a raised exception. -/
abbrev Res := Except Exc

deriving instance DecidableEq for Except

/-- Sequentially map a function that may raise over a list (a Python list
comprehension: evaluation stops at the first exception). -/
def mapRes {α : Type u} {β : Type v} (f : α → Res β) : List α → Res (List β)
  | [] => .ok []
  | x :: xs =>
    match f x with
    | .error e => .error e
    | .ok y =>
      match mapRes f xs with
      | .error e => .error e
      | .ok ys => .ok (y :: ys)

end Verif
