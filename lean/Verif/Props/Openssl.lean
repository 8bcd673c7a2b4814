import Verif.Spec.Openssl
/-!
# Loading of the OpenSSL library (C101)
-/

namespace Verif.Props

open Verif Spec

private theorem suits_iff (s : Loading) : s.suits = true ↔ HasCipher s.lib := by
  unfold Loading.suits HasCipher
  cases h : s.lib with
  | none => simp
  | some c => simp [Verif.suits]

private theorem suits_false {s : Loading} (h : ¬ HasCipher s.lib) : s.suits = false := by
  cases e : s.suits
  · rfl
  · exact absurd ((suits_iff s).mp e) h

private theorem import_first (H : Host) (d : Option PStr) (p : PStr) :
    importLib H ⟨d, p, none⟩ = (H.library d p).map fun c => ⟨d, p, some c⟩ := rfl

private theorem import_again (H : Host) (d : Option PStr) (p : PStr) (c : List PStr) :
    importLib H ⟨d, p, some c⟩ = some ⟨d, p, some c⟩ := rfl

private theorem no_cipher_none : ¬ HasCipher none := by
  rintro ⟨c, h, _⟩; exact absurd h (by simp)

/-- The loop finds nothing more once a library without the cipher is imported. -/
private theorem brew_stuck {H : Host} {c : List PStr} (hc : ¬ HasCipher (some c)) :
    ∀ {l : List PStr} {d : Option PStr} {p : PStr} {s : Loading},
      brewLoop H l ⟨d, p, some c⟩ = .ok s → s.suits = false
  | [], d, p, s, h => by
    simp only [brewLoop, Except.ok.injEq] at h; subst h; exact suits_false hc
  | q :: rest, d, p, s, h => by
    unfold brewLoop at h
    cases e : H.dirs q with
    | none => rw [e] at h; exact brew_stuck hc h
    | some names =>
      rw [e] at h; dsimp only at h
      cases e2 : names.getLast? with
      | none => rw [e2] at h; simp at h
      | some n =>
        rw [e2] at h
        simp only [import_again, suits_false (s := ⟨some (q ++ n ++ p!"/lib"), p, some c⟩) hc,
          Bool.false_eq_true, if_false] at h
        exact brew_stuck hc h

/-- The directories that the loop passes are not there. -/
private theorem brew_loop {H : Host} : ∀ {l : List PStr} {d : Option PStr} {p : PStr} {s : Loading},
    brewLoop H l ⟨d, p, none⟩ = .ok s → s.suits = true →
    ∃ skipped q v rest c, l = skipped ++ q :: rest ∧ (∀ x ∈ skipped, H.dirs x = none) ∧
      LastVersion H q v ∧ H.library (some (q ++ v ++ p!"/lib")) p = some c ∧
      s = ⟨some (q ++ v ++ p!"/lib"), p, some c⟩
  | [], d, p, s, h, hs => by
    simp only [brewLoop, Except.ok.injEq] at h; subst h; simp [Loading.suits] at hs
  | q :: rest, d, p, s, h, hs => by
    unfold brewLoop at h
    cases e : H.dirs q with
    | none =>
      rw [e] at h
      obtain ⟨sk, q', v, r, c, hl, hsk, h2⟩ := brew_loop h hs
      exact ⟨q :: sk, q', v, r, c, by rw [hl]; rfl,
        fun x hx => (List.mem_cons.mp hx).elim (fun hx => hx ▸ e) (hsk x), h2⟩
    | some names =>
      rw [e] at h; dsimp only at h
      cases e2 : names.getLast? with
      | none => rw [e2] at h; simp at h
      | some n =>
        rw [e2] at h
        simp only [import_first] at h
        cases e3 : H.library (some (q ++ n ++ p!"/lib")) p with
        | none => rw [e3] at h; simp at h
        | some c =>
          rw [e3] at h
          simp only [Option.map_some] at h
          cases e4 : Loading.suits ⟨some (q ++ n ++ p!"/lib"), p, some c⟩ with
          | false =>
            rw [e4] at h
            simp only [Bool.false_eq_true, if_false] at h
            have := brew_stuck (fun hc => by simp [(suits_iff ⟨_, p, some c⟩).mpr hc] at e4) h
            rw [this] at hs; cases hs
          | true =>
            rw [e4] at h
            simp only [if_true, Except.ok.injEq] at h
            obtain ⟨vs, hvs⟩ := List.getLast?_eq_some_iff.mp e2
            exact ⟨[], q, n, rest, c, rfl, by simp, ⟨vs, by rw [e, hvs]⟩, e3, h.symm⟩

private theorem brew_hit {H : Host} {v : PStr} {c : List PStr} {p : PStr} {d : Option PStr}
    {q : PStr} {rest : List PStr} (hv : LastVersion H q v)
    (hl : H.library (some (q ++ v ++ p!"/lib")) p = some c) (hc : p!"aes-128-ctr" ∈ c) :
    ∀ {skipped : List PStr}, (∀ x ∈ skipped, H.dirs x = none) →
    brewLoop H (skipped ++ q :: rest) ⟨d, p, none⟩ = .ok ⟨some (q ++ v ++ p!"/lib"), p, some c⟩
  | [], _ => by
    obtain ⟨vs, hvs⟩ := hv
    have hs : Loading.suits ⟨some (q ++ v ++ p!"/lib"), p, some c⟩ = true :=
      (suits_iff _).mpr ⟨c, rfl, hc⟩
    rw [List.nil_append]
    unfold brewLoop
    rw [hvs]
    simp only [List.getLast?_append, List.getLast?_singleton, Option.some_or, import_first, hl,
      Option.map_some, hs, if_true]
  | x :: sk, h => by
    rw [List.cons_append]
    unfold brewLoop
    rw [h x (List.mem_cons_self ..)]
    exact brew_hit hv hl hc fun y hy => h y (List.mem_cons_of_mem _ hy)

private theorem loaded_mac {H : Host} (hp : H.platform = .darwin) {s : Loading} :
    loadLibrary H = .loaded s ↔
      brewLoop H brewDirs ⟨H.dyld, H.path, none⟩ = .ok s ∧ s.suits = true := by
  unfold loadLibrary
  rw [hp]
  change (match (match brewLoop H brewDirs ⟨H.dyld, H.path, none⟩ with
    | .error e => LoadOutcome.raised e
    | .ok s => .loaded s) with
    | .loaded s => if s.suits then LoadOutcome.loaded s else .exit 1
    | out => out) = _ ↔ _
  cases brewLoop H brewDirs ⟨H.dyld, H.path, none⟩ with
  | error e => simp
  | ok s' =>
    dsimp only
    cases e : s'.suits
    · simp only [Bool.false_eq_true, if_false, reduceCtorEq, Except.ok.injEq, false_iff]
      rintro ⟨rfl, h⟩; rw [e] at h; cases h
    · simp only [if_true, LoadOutcome.loaded.injEq, Except.ok.injEq]
      exact ⟨fun h => ⟨h, h ▸ e⟩, And.left⟩

private theorem loaded_windows {H : Host} (hp : H.platform = .win32) {s : Loading} :
    loadLibrary H = .loaded s ↔
      windowsLib H ⟨H.dyld, H.path, none⟩ = .loaded s ∧ s.suits = true := by
  unfold loadLibrary
  rw [hp]
  dsimp only
  cases windowsLib H ⟨H.dyld, H.path, none⟩ with
  | raised e => simp
  | exit n => simp
  | loaded s' =>
    dsimp only
    cases e : s'.suits
    · simp only [Bool.false_eq_true, if_false, reduceCtorEq, LoadOutcome.loaded.injEq, false_iff]
      rintro ⟨rfl, h⟩; rw [e] at h; cases h
    · simp only [if_true, LoadOutcome.loaded.injEq]
      exact ⟨fun h => ⟨h, h ▸ e⟩, And.left⟩

/-- `PATH` with the directory of the program as first entry. -/
private abbrev newPath (H : Host) : PStr := semiJoin (H.exeDir :: (semiSplit H.path).erase H.exeDir)

/-- What is left to do on Windows after the first attempt. -/
private def windowsRest (H : Host) (s : Loading) : LoadOutcome :=
  if s.suits then .loaded s
  else if !H.frozen then .exit 1
  else
    match H.dirs H.exeDir with
    | none => .loaded s
    | some _ =>
      match importLib H (appFirst H s) with
      | none => .raised .otherError
      | some s => .loaded s

private theorem windows_first (H : Host) (s : Loading) :
    windowsLib H s = windowsRest H ((importLib H s).getD s) := rfl

private theorem windows_cases {H : Host} {s : Loading} :
    (windowsLib H ⟨H.dyld, H.path, none⟩ = .loaded s ∧ s.suits = true) ↔
      (∃ c, H.library H.dyld H.path = some c ∧ p!"aes-128-ctr" ∈ c ∧ s = ⟨H.dyld, H.path, some c⟩) ∨
      (H.library H.dyld H.path = none ∧ H.frozen = true ∧ H.dirs H.exeDir ≠ none ∧
        ∃ c, H.library H.dyld (newPath H) = some c ∧ p!"aes-128-ctr" ∈ c ∧
          s = ⟨H.dyld, newPath H, some c⟩) := by
  rw [windows_first, import_first]
  cases e : H.library H.dyld H.path with
  | some c =>
    rw [Option.map_some, Option.getD_some]
    unfold windowsRest
    cases e2 : Loading.suits ⟨H.dyld, H.path, some c⟩ with
    | true =>
      obtain ⟨c', hc', hm⟩ := (suits_iff _).mp e2
      cases hc'
      simp only [if_true, LoadOutcome.loaded.injEq, Option.some.injEq, reduceCtorEq, false_and,
        or_false]
      constructor
      · rintro ⟨rfl, _⟩; exact ⟨c, rfl, hm, rfl⟩
      · rintro ⟨_, rfl, _, rfl⟩; exact ⟨rfl, e2⟩
    | false =>
      have hn : ¬ p!"aes-128-ctr" ∈ c := fun h => by
        rw [(suits_iff ⟨H.dyld, H.path, some c⟩).mpr ⟨c, rfl, h⟩] at e2; cases e2
      simp only [Bool.false_eq_true, if_false, Option.some.injEq, reduceCtorEq, false_and, or_false]
      have hnot : ¬ ∃ c', c = c' ∧ p!"aes-128-ctr" ∈ c' ∧ s = ⟨H.dyld, H.path, some c'⟩ := by
        rintro ⟨_, rfl, h, _⟩; exact hn h
      refine iff_of_false ?_ hnot
      rintro ⟨h, hs⟩
      have stuck : ∀ p, Loading.suits ⟨H.dyld, p, some c⟩ = false := fun p =>
        suits_false (s := ⟨H.dyld, p, some c⟩) (by rintro ⟨_, h, h'⟩; cases h; exact hn h')
      cases hf : H.frozen with
      | false => rw [hf] at h; simp at h
      | true =>
        rw [hf] at h
        cases hd : H.dirs H.exeDir with
        | none =>
          rw [hd] at h; simp at h; subst h; rw [e2] at hs; cases hs
        | some _ =>
          rw [hd] at h
          simp only [Bool.not_true, Bool.false_eq_true, if_false, appFirst, import_again,
            LoadOutcome.loaded.injEq] at h
          subst h; rw [stuck] at hs; cases hs
  | none =>
    rw [Option.map_none, Option.getD_none]
    unfold windowsRest
    simp only [reduceCtorEq, false_and, exists_false, false_or, true_and]
    rw [show Loading.suits ⟨H.dyld, H.path, none⟩ = false from rfl]
    cases hf : H.frozen with
    | false => simp
    | true =>
      cases hd : H.dirs H.exeDir with
      | none =>
        simp only [Bool.not_true, Bool.false_eq_true, if_false, LoadOutcome.loaded.injEq, ne_eq,
          not_true_eq_false, false_and, and_false, iff_false]
        rintro ⟨rfl, h⟩; simp [Loading.suits] at h
      | some _ =>
        simp only [Bool.not_true, Bool.false_eq_true, if_false, appFirst, import_first, ne_eq,
          reduceCtorEq, not_false_eq_true, true_and]
        cases e2 : H.library H.dyld (newPath H) with
        | none => simp
        | some c =>
          simp only [Option.map_some, LoadOutcome.loaded.injEq, Option.some.injEq]
          constructor
          · rintro ⟨rfl, h⟩
            obtain ⟨c', hc', hm⟩ := (suits_iff _).mp h
            cases hc'
            exact ⟨c, rfl, hm, rfl⟩
          · rintro ⟨_, rfl, hm, rfl⟩
            exact ⟨rfl, (suits_iff _).mpr ⟨c, rfl, hm⟩⟩

private theorem loaded_other {H : Host} (hp : H.platform = .other) {s : Loading} :
    loadLibrary H = .loaded s ↔
      ∃ c, H.library H.dyld H.path = some c ∧ p!"aes-128-ctr" ∈ c ∧ s = ⟨H.dyld, H.path, some c⟩ := by
  unfold loadLibrary
  rw [hp]
  simp only [import_first]
  cases e : H.library H.dyld H.path with
  | none => simp
  | some c =>
    simp only [Option.map_some, Option.some.injEq]
    cases e2 : Loading.suits ⟨H.dyld, H.path, some c⟩ with
    | true =>
      obtain ⟨c', hc', hm⟩ := (suits_iff _).mp e2
      cases hc'
      simp only [if_true, LoadOutcome.loaded.injEq]
      exact ⟨fun h => ⟨c, rfl, hm, h.symm⟩, fun ⟨_, h, _, h'⟩ => by subst h; exact h'.symm⟩
    | false =>
      simp only [Bool.false_eq_true, if_false, reduceCtorEq, false_iff]
      rintro ⟨_, rfl, h, _⟩
      rw [(suits_iff ⟨H.dyld, H.path, some c⟩).mpr ⟨c, rfl, h⟩] at e2; cases e2

private theorem split_word : ∀ {w : PStr}, ';' ∉ w → semiSplit w = [w]
  | [], _ => rfl
  | c :: w, h => by
    have hc : c ≠ ';' := fun e => h (by rw [e]; exact List.mem_cons_self ..)
    rw [semiSplit, if_neg hc, split_word fun e => h (List.mem_cons_of_mem _ e)]

private theorem split_append {rest : PStr} : ∀ {w : PStr}, ';' ∉ w →
    semiSplit (w ++ ';' :: rest) = w :: semiSplit rest
  | [], _ => by rw [List.nil_append, semiSplit, if_pos rfl]
  | c :: w, h => by
    have hc : c ≠ ';' := fun e => h (by rw [e]; exact List.mem_cons_self ..)
    rw [List.cons_append, semiSplit, if_neg hc, split_append fun e => h (List.mem_cons_of_mem _ e)]

private theorem split_entries {p : PStr} {ws : List PStr} (h : PathEntries p ws) : semiSplit p = ws := by
  induction h with
  | last w h => exact split_word h
  | cons w rest ws h _ ih => rw [split_append h, ih]

private theorem join_inter : ∀ ws : List PStr, semiJoin ws = List.intercalate [';'] ws
  | [] => rfl
  | [w] => by simp [semiJoin, List.intercalate]
  | w :: w' :: ws => by
    rw [semiJoin, join_inter (w' :: ws)]
    · simp [List.intercalate]
    · simp

/-- C101: once the import is done, the library in use is the one found with the environment as it is
now, and it has the cipher.  `PATH` is only changed on Windows, `DYLD_LIBRARY_PATH` only on macOS. -/
theorem library_in_use (H : Host) (s : Loading) (h : loadLibrary H = .loaded s) :
    HasCipher s.lib ∧ s.lib = H.library s.dyld s.path ∧
      (H.platform ≠ .win32 → s.path = H.path) ∧ (H.platform ≠ .darwin → s.dyld = H.dyld) := by
  cases hp : H.platform with
  | other =>
    obtain ⟨c, hc, hm, rfl⟩ := (loaded_other hp).mp h
    exact ⟨⟨c, rfl, hm⟩, hc.symm, fun _ => rfl, fun _ => rfl⟩
  | darwin =>
    obtain ⟨h, hs⟩ := (loaded_mac hp).mp h
    obtain ⟨_, q, v, _, c, _, _, _, hl, rfl⟩ := brew_loop h hs
    exact ⟨(suits_iff _).mp hs, hl.symm, fun _ => rfl, fun h => absurd rfl h⟩
  | win32 =>
    obtain ⟨c, hc, hm, rfl⟩ | ⟨_, _, _, c, hc, hm, rfl⟩ := windows_cases.mp ((loaded_windows hp).mp h)
    · exact ⟨⟨c, rfl, hm⟩, hc.symm, fun _ => rfl, fun _ => rfl⟩
    · exact ⟨⟨c, rfl, hm⟩, hc.symm, fun h => absurd rfl h, fun _ => rfl⟩

/-- C101: on Linux the import is done exactly if the usual library has the cipher. -/
theorem library_linux (H : Host) (hp : H.platform = .other) :
    (∃ s, loadLibrary H = .loaded s) ↔ HasCipher (H.library H.dyld H.path) := by
  simp only [loaded_other hp]
  exact ⟨fun ⟨_, c, hc, hm, _⟩ => ⟨c, hc, hm⟩, fun ⟨c, hc, hm⟩ => ⟨_, c, hc, hm, rfl⟩⟩

/-- C101 (partial): on macOS exactly if the version listed last in the first of the directories that is
there has the cipher.  Missing, because false: the second directory if the first has a library without
it (`library_second_refuted`), and libraries elsewhere (`library_elsewhere_refuted`). -/
theorem library_macos_partial (H : Host) (hp : H.platform = .darwin) :
    (∃ s, loadLibrary H = .loaded s) ↔
      ∃ skipped p v rest, brewDirs = skipped ++ p :: rest ∧ (∀ x ∈ skipped, H.dirs x = none) ∧
        LastVersion H p v ∧ HasCipher (H.library (some (p ++ v ++ p!"/lib")) H.path) := by
  simp only [loaded_mac hp]
  constructor
  · rintro ⟨s, h, hs⟩
    obtain ⟨sk, q, v, r, c, hl, hsk, hv, hc, rfl⟩ := brew_loop h hs
    obtain ⟨c', hc', hm⟩ := (suits_iff _).mp hs
    cases hc'
    exact ⟨sk, q, v, r, hl, hsk, hv, c, hc, hm⟩
  · rintro ⟨sk, q, v, r, hl, hsk, hv, c, hc, hm⟩
    refine ⟨⟨some (q ++ v ++ p!"/lib"), H.path, some c⟩, ?_, (suits_iff _).mpr ⟨c, rfl, hm⟩⟩
    rw [hl]
    exact brew_hit hv hc hm hsk

/-- C101 (partial): on Windows exactly if the library on `PATH` has the cipher, or there is none and
the program is frozen and its directory has one.  Missing, because false: the directory of the program
if there is a library without the cipher on `PATH` (`library_program_refuted`). -/
theorem library_windows_partial (H : Host) (hp : H.platform = .win32)
    (entries : List PStr) (he : PathEntries H.path entries) :
    (∃ s, loadLibrary H = .loaded s) ↔
      HasCipher (H.library H.dyld H.path) ∨
      (H.library H.dyld H.path = none ∧ H.frozen = true ∧ H.dirs H.exeDir ≠ none ∧
        ∃ path, HasCipher (H.library H.dyld path) ∧
          path = List.intercalate [';'] (H.exeDir :: entries.erase H.exeDir)) := by
  simp only [loaded_windows hp, windows_cases]
  have hn : newPath H = List.intercalate [';'] (H.exeDir :: entries.erase H.exeDir) := by
    rw [newPath, split_entries he, join_inter]
  constructor
  · rintro ⟨s, ⟨c, hc, hm, _⟩ | ⟨h1, h2, h3, c, hc, hm, _⟩⟩
    · exact .inl ⟨c, hc, hm⟩
    · exact .inr ⟨h1, h2, h3, _, ⟨c, hc, hm⟩, hn⟩
  · rintro (⟨c, hc, hm⟩ | ⟨h1, h2, h3, _, ⟨c, hc, hm⟩, hp⟩)
    · exact ⟨_, .inl ⟨c, hc, hm, rfl⟩⟩
    · exact ⟨_, .inr ⟨h1, h2, h3, c, by rw [hn, ← hp]; exact hc, hm, rfl⟩⟩

/-! ### Where it does not look, and examples -/

/-- A Mac with these directories and library. -/
private def mac (dirs : PStr → Option (List PStr)) (library : Option PStr → PStr → Option (List PStr)) :
    Host where
  platform := .darwin
  frozen := false
  dyld := none
  path := p!"/usr/bin"
  exeDir := p!"/usr/bin"
  dirs := dirs
  library := library

private abbrev brew10 : PStr := p!"/usr/local/Cellar/openssl/"
private abbrev brew11 : PStr := p!"/usr/local/Cellar/openssl@1.1/"

/-- Both directories, the first with an old library. -/
private def oldMac : Host :=
  mac (fun p => if p = brew10 then some [p!"0.9.8"] else if p = brew11 then some [p!"1.1.0", p!"1.1.1"] else none)
    fun d _ => if d = some (brew11 ++ p!"1.1.1/lib") then some [p!"aes-128-ctr"] else some [p!"rc4"]

/-- C101 is false on macOS: if the library in the first directory does not have the cipher, the one in
the second is not tried, though the code goes there: the module is imported already. -/
theorem library_second_refuted :
    ∃ (H : Host) (p v : PStr), H.platform = .darwin ∧ p ∈ brewDirs ∧ LastVersion H p v ∧
      HasCipher (H.library (some (p ++ v ++ p!"/lib")) H.path) ∧ loadLibrary H = .exit 1 :=
  ⟨oldMac, brew11, p!"1.1.1", rfl, by simp [brewDirs], ⟨[p!"1.1.0"], by decide +kernel⟩,
    ⟨[p!"aes-128-ctr"], by decide +kernel, by simp⟩, rfl⟩

/-- C101 is false on macOS: a library elsewhere is not found, be it one that `import pyelliptic` would
find and from the place that the error message recommends (MacPorts). -/
theorem library_elsewhere_refuted :
    ∃ H : Host, H.platform = .darwin ∧ HasCipher (H.library H.dyld H.path) ∧
      loadLibrary H = .exit 1 :=
  ⟨mac (fun _ => none) fun _ _ => some [p!"aes-128-ctr"], rfl, ⟨_, rfl, by simp⟩, rfl⟩

/-- An empty directory left behind by Homebrew makes the import fail with `IndexError`. -/
theorem library_empty_directory :
    ∃ H : Host, H.platform = .darwin ∧ HasCipher (H.library H.dyld H.path) ∧
      loadLibrary H = .raised .indexError :=
  ⟨mac (fun _ => some []) fun _ _ => some [p!"aes-128-ctr"], rfl, ⟨_, rfl, by simp⟩, rfl⟩

/-- A frozen program on Windows in `C:\g` with its own library, and another library on `PATH`. -/
private def windows (onPath : Option (List PStr)) : Host where
  platform := .win32
  frozen := true
  dyld := none
  path := p!"C:\\w;C:\\g"
  exeDir := p!"C:\\g"
  dirs := fun p => if p = p!"C:\\g" then some [p!"golem.exe"] else none
  library := fun _ p => if p = p!"C:\\g;C:\\w" then some [p!"aes-128-ctr"] else onPath

/-- C101 is false on Windows: a library without the cipher on `PATH` keeps a frozen program from using
its own, though the code puts its directory first: the module is imported already. -/
theorem library_program_refuted :
    ∃ (H : Host) (path : PStr), H.platform = .win32 ∧ H.frozen = true ∧ H.dirs H.exeDir ≠ none ∧
      PathEntries H.path [p!"C:\\w", H.exeDir] ∧ path = H.exeDir ++ p!";C:\\w" ∧
      HasCipher (H.library H.dyld path) ∧ loadLibrary H = .exit 1 :=
  ⟨windows (some [p!"rc4"]), p!"C:\\g;C:\\w", rfl, rfl, by decide +kernel,
    .cons p!"C:\\w" p!"C:\\g" _ (by decide) (.last p!"C:\\g" (by decide)), rfl,
    ⟨_, rfl, by simp⟩, rfl⟩

/-- On such a computer without the other library the import is done (`library_windows_partial`). -/
example : ∃ s, loadLibrary (windows none) = .loaded s :=
  (library_windows_partial (windows none) rfl [p!"C:\\w", p!"C:\\g"]
    (.cons p!"C:\\w" p!"C:\\g" _ (by decide) (.last p!"C:\\g" (by decide)))).mpr
    (.inr ⟨rfl, rfl, by decide +kernel, _, ⟨_, rfl, by simp⟩, rfl⟩)

/-- Only the second directory. -/
private def newMac : Host :=
  mac (fun p => if p = brew11 then some [p!"1.1.0", p!"1.1.1"] else none) oldMac.library

/-- The second directory is used if the first is not there (`library_macos_partial`), and the library
in use is that of the version listed last (`library_in_use`). -/
example : ∃ s, loadLibrary newMac = .loaded s ∧ s.dyld = some (brew11 ++ p!"1.1.1/lib") ∧
    HasCipher s.lib := by
  have h : loadLibrary newMac =
    .loaded ⟨some (brew11 ++ p!"1.1.1/lib"), p!"/usr/bin", some [p!"aes-128-ctr"]⟩ := rfl
  exact ⟨_, h, rfl, (library_in_use newMac _ h).1⟩

example : ∃ s, loadLibrary { windows (some [p!"aes-128-ctr"]) with platform := .other } = .loaded s :=
  (library_linux _ rfl).mpr ⟨_, rfl, by simp⟩

end Verif.Props
