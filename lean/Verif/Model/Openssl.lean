import Verif.Model.Exc
/-!
# Loading of the OpenSSL library: `golem_messages/cryptography.py:20-73`

What happens when `golem_messages.cryptography` is imported, on each platform.
-/

namespace Verif

/-- `sys.platform` as far as it is looked at. -/
inductive Platform where
  | darwin | win32 | other
  deriving DecidableEq, Repr

/-- What the import sees of the computer. -/
structure Host where
  platform : Platform
  /-- `getattr(sys, 'frozen', False)` -/
  frozen : Bool
  /-- `os.environ['DYLD_LIBRARY_PATH']`, if set -/
  dyld : Option PStr
  /-- `os.environ['PATH']` -/
  path : PStr
  /-- `os.path.dirname(sys.executable)` -/
  exeDir : PStr
  /-- `os.listdir`; `none` if the directory does not exist -/
  dirs : PStr → Option (List PStr)
  /-- the ciphers of the library that the first `import pyelliptic` finds with these values of
  `DYLD_LIBRARY_PATH` and `PATH`; `none` if it raises -/
  library : Option PStr → PStr → Option (List PStr)

/-- The state: the two environment variables, and the imported module by the ciphers of its library.
A module that is imported stays (`sys.modules`); one that raises does not. -/
structure Loading where
  dyld : Option PStr
  path : PStr
  lib : Option (List PStr)

/-- How the import of `cryptography` ends. -/
inductive LoadOutcome where
  | loaded (s : Loading)
  | exit (code : Nat)
  | raised (e : Exc)

/-- `import pyelliptic`; `none` if it raises. -/
def importLib (H : Host) (s : Loading) : Option Loading :=
  match s.lib with
  | some _ => some s
  | none => (H.library s.dyld s.path).map fun c => { s with lib := some c }

/-- `CIPHERNAMES.issubset(set(pyelliptic.Cipher.get_all_cipher()))`
(`cryptography.py:20, 37, 42, 60, 67`). -/
def suits (ciphers : List PStr) : Bool := [p!"aes-128-ctr"].all fun n => ciphers.contains n

/-- Whether the module is imported and has the ciphers (`cryptography.py:66-67`). -/
def Loading.suits (s : Loading) : Bool :=
  match s.lib with
  | some c => Verif.suits c
  | none => false

/-- The loop for macOS (`cryptography.py:31-38`): in the directory that is there, the entry that is
listed last. -/
def brewLoop (H : Host) : List PStr → Loading → Res Loading
  | [], s => .ok s
  | p :: rest, s =>
    match H.dirs p with
    | none => brewLoop H rest s
    | some names =>
      match names.getLast? with
      | none => .error .indexError
      | some n =>
        match importLib H { s with dyld := some (p ++ n ++ p!"/lib") } with
        | none => .error .otherError
        | some s => if s.suits then .ok s else brewLoop H rest s

/-- `s.split(';')`. -/
def semiSplit : PStr → List PStr
  | [] => [[]]
  | c :: cs =>
    if c = ';' then [] :: semiSplit cs
    else
      match semiSplit cs with
      | [] => [[c]]
      | w :: ws => (c :: w) :: ws

/-- `';'.join(ws)`. -/
def semiJoin : List PStr → PStr
  | [] => []
  | [w] => w
  | w :: ws => w ++ ';' :: semiJoin ws

/-- The directory of the program as first entry of `PATH` (`cryptography.py:53-57`). -/
def appFirst (H : Host) (s : Loading) : Loading :=
  { s with path := semiJoin (H.exeDir :: (semiSplit s.path).erase H.exeDir) }

/-- The branch for Windows (`cryptography.py:39-61`). -/
def windowsLib (H : Host) (s : Loading) : LoadOutcome :=
  let s := (importLib H s).getD s  -- exceptions are caught
  if s.suits then .loaded s
  else if !H.frozen then .exit 1
  else
    match H.dirs H.exeDir with
    | none => .loaded s
    | some _ =>
      match importLib H (appFirst H s) with
      | none => .raised .otherError
      | some s => .loaded s

/-- The import of `golem_messages.cryptography` (`cryptography.py:20-73`). -/
def loadLibrary (H : Host) : LoadOutcome :=
  let s : Loading := { dyld := H.dyld, path := H.path, lib := none }
  let out : LoadOutcome :=
    match H.platform with
    | .other =>
      match importLib H s with
      | none => .raised .otherError
      | some s => .loaded s
    | .darwin =>
      match brewLoop H [p!"/usr/local/Cellar/openssl/", p!"/usr/local/Cellar/openssl@1.1/"] s with
      | .error e => .raised e
      | .ok s => .loaded s
    | .win32 => windowsLib H s
  match out with
  | .loaded s => if s.suits then .loaded s else .exit 1
  | out => out

end Verif
