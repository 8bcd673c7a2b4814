import Verif.Model.Unicode
/-!
# Version compatibility

`message/base.py:56-79` (`verify_version`) on top of the third-party package
`semantic_version` (2.8.x: `Version.parse`, `Version.next_minor`, `Range.match`),
of which the parts used are transcribed.
-/

namespace Verif

/-- A parsed `semantic_version.Version`.  The build suffix is parsed but plays no
role in comparisons. -/
structure Version where
  major : Nat
  minor : Nat
  patch : Nat
  pre : List PStr
  build : List PStr
  deriving DecidableEq, Repr

/-- ASCII decimal digit. -/
def isDig (c : Char) : Bool := '0' ≤ c && c ≤ '9'

/-- `[0-9a-zA-Z.-]`. -/
def isIdChar (c : Char) : Bool :=
  isDig c || ('a' ≤ c && c ≤ 'z') || ('A' ≤ c && c ≤ 'Z') || c == '.' || c == '-'

/-- `\d`: a decimal digit of any script. -/
def isDec (c : Char) : Bool := (decimalVal c).isSome

/-- `int(s)` of a run of decimal digits. -/
def digitsVal (s : PStr) : Nat := s.foldl (fun acc c => acc * 10 + (decimalVal c).getD 0) 0

/-- `_has_leading_zero`. -/
def leadingZero (s : PStr) : Bool := s.head? == some '0' && s.all isDec && s != p!"0"

/-- One numeric component: `(\d+)` without leading zero. -/
def parseNum (s : PStr) : Option (Nat × PStr) :=
  let d := s.takeWhile isDec
  if d.isEmpty || leadingZero d then none else some (digitsVal d, s.dropWhile isDec)

/-- `s.split('.')`. -/
def splitDots : PStr → List PStr
  | [] => [[]]
  | c :: cs =>
    if c = '.' then [] :: splitDots cs
    else
      match splitDots cs with
      | [] => [[c]]
      | x :: xs => (c :: x) :: xs

/-- `Version._validate_identifiers`. -/
def identsOk (allowZero : Bool) (l : List PStr) : Bool :=
  l.all fun i => !i.isEmpty && (allowZero || !leadingZero i)

/-- An expected separator. -/
def expect (c : Char) : PStr → Option PStr
  | x :: xs => if x = c then some xs else none
  | [] => none

/-- The optional build suffix (`(?:\+([0-9a-zA-Z.-]+))?` up to the end). -/
def parseBuild (s : PStr) : Option (List PStr) :=
  match s with
  | [] => some []
  | c :: cs =>
    if c = '+' && !cs.isEmpty && cs.all isIdChar && identsOk true (splitDots cs)
    then some (splitDots cs) else none

/-- The optional pre-release and build suffixes. -/
def parseSuffix (s : PStr) : Option (List PStr × List PStr) :=
  match s with
  | '-' :: cs =>
    let p := cs.takeWhile isIdChar
    if p.isEmpty || !identsOk false (splitDots p) then none
    else (parseBuild (cs.dropWhile isIdChar)).map (splitDots p, ·)
  | _ => (parseBuild s).map ([], ·)

/-- `$` also matches before a final newline. -/
def stripNl (s : PStr) : PStr := if s.getLast? = some '\n' then s.dropLast else s

/-- `semantic_version.Version(s)`; `none` stands for `ValueError`. -/
def parseVersion (s : PStr) : Option Version :=
  match parseNum (stripNl s) with
  | none => none
  | some (ma, s1) =>
  match expect '.' s1 with
  | none => none
  | some s2 =>
  match parseNum s2 with
  | none => none
  | some (mi, s3) =>
  match expect '.' s3 with
  | none => none
  | some s4 =>
  match parseNum s4 with
  | none => none
  | some (pa, s5) =>
  match parseSuffix s5 with
  | none => none
  | some (pre, build) => some ⟨ma, mi, pa, pre, build⟩

/-- Lexicographic comparison of release triples. -/
def tripleLt (a b : Nat × Nat × Nat) : Bool :=
  decide (a.1 < b.1) || (a.1 == b.1 &&
    (decide (a.2.1 < b.2.1) || (a.2.1 == b.2.1 && decide (a.2.2 < b.2.2))))

/-- Release triple. -/
def Version.triple (v : Version) : Nat × Nat × Nat := (v.major, v.minor, v.patch)

/-- `Version.next_minor()`: the release triple of the next minor version (of a
pre-release of an `x.y.0` version it is that very version). -/
def Version.nextMinor (v : Version) : Nat × Nat × Nat :=
  if !v.pre.isEmpty && v.patch == 0 then (v.major, v.minor, 0) else (v.major, v.minor + 1, 0)

/-- `v >= target` for a target without pre-release (a pre-release precedes its
release). -/
def Version.geRelease (v : Version) (t : Nat × Nat × Nat) : Bool :=
  tripleLt t v.triple || (v.triple == t && v.pre.isEmpty)

/-- `Range('<', target).match(v)` with the default pre-release policy: the
pre-releases of the bound itself are excluded. -/
def Version.ltRelease (v : Version) (t : Nat × Nat × Nat) : Bool :=
  if !v.pre.isEmpty && v.triple == t then false else tripleLt v.triple t

/-- `verify_version(msg_version)` (`message/base.py:56-79`); `ours` is
`golem_messages.__version__`. -/
def verifyVersion (ours theirs : PStr) : Res Unit :=
  match parseVersion theirs with
  | none => .error .versionMismatch
  | some t =>
    match parseVersion ours with
    | none => .error .valueError
    | some o =>
      if t.geRelease (o.major, o.minor, 0) && t.ltRelease o.nextMinor then .ok ()
      else .error .versionMismatch

end Verif
