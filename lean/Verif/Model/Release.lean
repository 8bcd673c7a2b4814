import Verif.Model.Bytes
import Verif.Model.Exc
/-!
# The version of the library: `version.py`, `golem_messages/__init__.py:6-8`

Run by `setup.py:19-26`; what it writes is `golem_messages.__version__`.
-/

namespace Verif

/-- White space as `str.strip` and `str.split` see it. -/
def isPySpace (c : Char) : Bool :=
  let n := c.toNat
  (9 ≤ n && n ≤ 13) || (28 ≤ n && n ≤ 32) || n == 0x85 || n == 0xa0 || n == 0x1680 ||
    (0x2000 ≤ n && n ≤ 0x200a) || n == 0x2028 || n == 0x2029 || n == 0x202f || n == 0x205f ||
    n == 0x3000

/-- `s.strip()`. -/
def pyStrip (s : PStr) : PStr := ((s.dropWhile isPySpace).reverse.dropWhile isPySpace).reverse

/-- A character that is no white space before the text `cs`, whose words are `ws`. -/
def pyWord (c : Char) (cs : PStr) (ws : List PStr) : List PStr :=
  match cs, ws with
  | d :: _, w :: ws => if isPySpace d then [c] :: w :: ws else (c :: w) :: ws
  | _, ws => [c] :: ws

/-- `s.split()`. -/
def pySplit : PStr → List PStr
  | [] => []
  | c :: cs => if isPySpace c then pySplit cs else pyWord c cs (pySplit cs)

/-- What `version.py` sees of its surroundings. -/
structure Surroundings where
  /-- the working directory of the process -/
  dir : PStr
  /-- standard output of a command run in a directory; `none` if it fails -/
  run : PStr → List PStr → Option Bytes
  /-- the text of `RELEASE-VERSION` in a directory; `none` if there is no such file -/
  release : PStr → Option PStr

/-- One call of `subprocess.run(..., check=True).stdout.decode()` (`version.py:44-56`); it runs in the
working directory of the process. -/
def runText (W : Surroundings) (cmd : PStr) : Res PStr :=
  match W.run W.dir (pySplit cmd) with
  | none => .error .otherError  -- CalledProcessError
  | some out =>
    match utf8Dec out with
    | none => .error .valueError  -- UnicodeDecodeError
    | some s => .ok s

/-- `call_git_describe(prefix, cwd)` (`version.py:41-73`); the argument `cwd` is not used. -/
def callGitDescribe (W : Surroundings) (pre _cwd : PStr) : Res PStr :=
  match runText W (p!"git describe --tags --match " ++ pre ++ p!"[0-9]*") with
  | .error e => .error e
  | .ok out =>
  match runText W (p!"git describe --tags --match " ++ pre ++ p!"[0-9]* --abbrev=0") with
  | .error e => .error e
  | .ok out' =>
  if ' ' ∈ pre then .error .assertionError
  else if !pre.isPrefixOf (pyStrip out) then .error .assertionError
  else if !pre.isPrefixOf (pyStrip out') then .error .assertionError
  else
    let version := (pyStrip out).drop pre.length
    let lastTag := (pyStrip out').drop pre.length
    if !lastTag.isPrefixOf version then .error .assertionError
    else if version ≠ lastTag then
      .ok (lastTag ++ p!"+dev" ++
        (version.drop (lastTag.length + 1)).map fun c => if c = '-' then '.' else c)
    else .ok version

/-- `get_version(prefix, cwd, no_update_version_file)` (`version.py:76-97`): the result and what is
written to `RELEASE-VERSION` in `cwd`, if anything.  The version is never `None` in line 89.
Simplification: the file can be read (as text in the encoding of the system) and written. -/
def getVersion (W : Surroundings) (pre cwd : PStr) (noUpdate : Bool) : Res PStr × Option PStr :=
  match callGitDescribe W pre cwd with
  | .error e => (.error e, none)
  | .ok version =>
    if noUpdate then (.ok version, none)
    else if W.release cwd ≠ some version then (.ok version, some version)
    else (.ok version, none)

/-- The surroundings after a call of `get_version` (`version.py:93-95`). -/
def Surroundings.after (W : Surroundings) (cwd : PStr) : Option PStr → Surroundings
  | none => W
  | some t => { W with release := fun d => if d = cwd then some t else W.release d }

end Verif
