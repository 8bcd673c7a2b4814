import Verif.Lemmas.Bytes
import Verif.Lemmas.Toy
import Verif.Spec.Release
import Verif.Props.Auth
import Verif.Props.Version
/-!
# C98: the version of the library
-/

set_option linter.unusedSimpArgs false

namespace Verif.Props

open Verif Spec

/-! ### Text -/

private theorem space_graphic {c : Char} (h : 33 ≤ c.toNat ∧ c.toNat ≤ 126) : isPySpace c = false := by
  unfold isPySpace
  simp
  omega

private theorem split_blank (r : PStr) : pySplit (' ' :: r) = pySplit r := by
  rw [pySplit, if_pos (by decide)]

private theorem split_char {c : Char} (cs : PStr) (h : isPySpace c = false) :
    pySplit (c :: cs) = pyWord c cs (pySplit cs) := by
  rw [pySplit, if_neg (by rw [h]; simp)]

private theorem split_word {w : PStr} (hw : w ≠ []) (hs : ∀ c ∈ w, isPySpace c = false) (rest : PStr)
    (hr : rest = [] ∨ ∃ r, rest = ' ' :: r) : pySplit (w ++ rest) = w :: pySplit rest := by
  induction w with
  | nil => exact absurd rfl hw
  | cons c cs ih =>
    rw [List.cons_append, split_char _ (hs c (by simp))]
    cases cs with
    | nil =>
      rw [List.nil_append]
      rcases hr with rfl | ⟨r, rfl⟩
      · rfl
      · rw [split_blank]
        cases pySplit r with
        | nil => rfl
        | cons a b =>
          unfold pyWord
          dsimp only
          rw [if_pos (by decide)]
    | cons d ds =>
      rw [ih (by simp) (fun x hx => hs x (by simp [hx]))]
      have hd := hs d (by simp)
      unfold pyWord
      simp only [List.cons_append]
      rw [if_neg (by rw [hd]; simp)]

private theorem split_words (pre : PStr) (hp : ∀ c ∈ pre, isPySpace c = false) :
    pySplit (p!"git describe --tags --match " ++ pre ++ p!"[0-9]*") =
      [p!"git", p!"describe", p!"--tags", p!"--match", pre ++ p!"[0-9]*"] ∧
    pySplit (p!"git describe --tags --match " ++ pre ++ p!"[0-9]* --abbrev=0") =
      [p!"git", p!"describe", p!"--tags", p!"--match", pre ++ p!"[0-9]*", p!"--abbrev=0"] := by
  have hw : ∀ c ∈ pre ++ p!"[0-9]*", isPySpace c = false := by
    intro c hc
    rcases List.mem_append.mp hc with h | h
    · exact hp c h
    · have : ∀ c ∈ p!"[0-9]*", isPySpace c = false := by decide
      exact this c h
  have hne : pre ++ p!"[0-9]*" ≠ [] := by simp
  have front : ∀ rest, pySplit (p!"git describe --tags --match " ++ rest) =
      p!"git" :: p!"describe" :: p!"--tags" :: p!"--match" :: pySplit rest := by
    intro rest
    rw [show p!"git describe --tags --match " ++ rest =
      p!"git" ++ ' ' :: (p!"describe" ++ ' ' :: (p!"--tags" ++ ' ' :: (p!"--match" ++ ' ' :: rest)))
      from rfl]
    rw [split_word (by decide) (by decide) _ (.inr ⟨_, rfl⟩), split_blank,
      split_word (by decide) (by decide) _ (.inr ⟨_, rfl⟩), split_blank,
      split_word (by decide) (by decide) _ (.inr ⟨_, rfl⟩), split_blank,
      split_word (by decide) (by decide) _ (.inr ⟨_, rfl⟩), split_blank]
  constructor
  · rw [List.append_assoc, front]
    have := split_word hne hw [] (.inl rfl)
    rw [List.append_nil] at this
    rw [this]
    rfl
  · rw [List.append_assoc, front]
    rw [show pre ++ p!"[0-9]* --abbrev=0" = (pre ++ p!"[0-9]*") ++ ' ' :: p!"--abbrev=0" by simp,
      split_word hne hw _ (.inr ⟨_, rfl⟩), split_blank]
    rfl

private theorem strip_line {s : PStr} (hs : ∀ c ∈ s, isPySpace c = false) : pyStrip (s ++ ['\n']) = s := by
  cases s with
  | nil => decide
  | cons c cs =>
    have hc := hs c (by simp)
    unfold pyStrip
    rw [List.cons_append, List.dropWhile_cons_of_neg (by rw [hc]; simp), ← List.cons_append,
      List.reverse_append]
    change (List.dropWhile isPySpace ('\n' :: (c :: cs).reverse)).reverse = _
    rw [List.dropWhile_cons_of_pos (by decide)]
    have : List.dropWhile isPySpace (c :: cs).reverse = (c :: cs).reverse := by
      cases hr : (c :: cs).reverse with
      | nil => rfl
      | cons d ds =>
        have hd : d ∈ c :: cs := List.mem_reverse.mp (by rw [hr]; simp)
        rw [List.dropWhile_cons_of_neg (by rw [hs d hd]; simp)]
    rw [this, List.reverse_reverse]

private theorem runs {W : Surroundings} {cmd : PStr} {args : List PStr} {t : PStr}
    (ha : pySplit cmd = args) (h : W.run W.dir args = some (utf8Enc t)) : runText W cmd = .ok t := by
  unfold runText
  rw [ha, h]
  simp only [utf8Dec_enc]

private theorem decimal_digit (n : Nat) : ∀ c ∈ decimal n, 48 ≤ c.toNat ∧ c.toNat ≤ 57 :=
  fun c hc => (isDig_nat c).mp (decimal_digits n c hc)

private theorem hex_range {x : Char} (h : ('0' ≤ x ∧ x ≤ '9') ∨ ('a' ≤ x ∧ x ≤ 'f')) :
    48 ≤ x.toNat ∧ x.toNat ≤ 102 := by
  simp only [char_le_iff] at h
  have : '0'.toNat = 48 ∧ '9'.toNat = 57 ∧ 'a'.toNat = 97 ∧ 'f'.toNat = 102 := by decide
  omega

private theorem keep {s : PStr} (h : ∀ c ∈ s, 48 ≤ c.toNat) :
    (s.map fun c => if c = '-' then '.' else c) = s := by
  induction s with
  | nil => rfl
  | cons c cs ih =>
    rw [List.map_cons, ih (fun x hx => h x (by simp [hx])), if_neg]
    rintro rfl
    exact absurd (h '-' (by simp)) (by decide)

/-! ### The text of the version -/

/-- C98: of a checkout with a tag the version is the tag without its prefix; if commits were made
since, followed by `+dev`, their number, `.g` and the id of the commit. -/
theorem release_text (W : Surroundings) (pre cwd t : PStr) (co : Checkout) (hw : co.Wf)
    (ht : co.tag = pre ++ t) (hd : Describes (W.run W.dir) pre co) :
    callGitDescribe W pre cwd = .ok (if co.commits = 0 then t
      else t ++ p!"+dev" ++ decimal co.commits ++ p!".g" ++ co.id) := by
  have hsp : ∀ c ∈ co.tag, isPySpace c = false := fun c hc => space_graphic (hw.tag c hc)
  have hp : ∀ c ∈ pre, isPySpace c = false := fun c hc => hsp c (by rw [ht]; simp [hc])
  obtain ⟨c1, c2⟩ := split_words pre hp
  have hdesc : pyStrip co.described = if co.commits = 0 then co.tag
      else co.tag ++ '-' :: (decimal co.commits ++ '-' :: 'g' :: co.id) := by
    unfold Checkout.described
    split
    · exact strip_line hsp
    · rw [show co.tag ++ '-' :: (decimal co.commits ++ '-' :: 'g' :: (co.id ++ ['\n'])) =
        (co.tag ++ '-' :: (decimal co.commits ++ '-' :: 'g' :: co.id)) ++ ['\n'] by simp]
      apply strip_line
      intro c hc
      simp only [List.mem_append, List.mem_cons] at hc
      rcases hc with h | rfl | h | rfl | rfl | h
      · exact hsp c h
      · decide
      · exact space_graphic (by have := decimal_digit _ c h; omega)
      · decide
      · decide
      · exact space_graphic (by have := hex_range (hw.id c h); omega)
  unfold callGitDescribe
  rw [runs c1 hd.1, runs c2 hd.2]
  dsimp only
  rw [if_neg (by intro h; have := hp _ h; exact absurd this (by decide)), hdesc, strip_line hsp]
  by_cases hn : co.commits = 0
  · simp only [hn, if_true]
    rw [ht, if_neg (by simp), if_neg (by simp)]
    simp
  · simp only [hn, if_false]
    rw [ht, if_neg (by simp [List.append_assoc]), if_neg (by simp)]
    have e1 : (pre ++ t ++ '-' :: (decimal co.commits ++ '-' :: 'g' :: co.id)).drop pre.length =
        t ++ '-' :: (decimal co.commits ++ '-' :: 'g' :: co.id) := by
      rw [List.append_assoc, List.drop_left]
    have e2 : (pre ++ t).drop pre.length = t := List.drop_left
    rw [e1, e2, if_neg (by simp), if_pos (by
      intro h
      have := congrArg List.length h
      simp at this)]
    have e3 : (t ++ '-' :: (decimal co.commits ++ '-' :: 'g' :: co.id)).drop (t.length + 1) =
        decimal co.commits ++ '-' :: 'g' :: co.id := by
      rw [List.drop_append, List.drop_of_length_le (by omega)]
      simp
    rw [e3]
    congr 1
    rw [List.map_append, keep (fun c hc => (decimal_digit _ c hc).1), List.map_cons, List.map_cons,
      keep (fun c hc => (hex_range (hw.id c hc)).1)]
    simp

private theorem version_wf {co : Checkout} (hw : co.Wf) {v : Ver} (hv : v.Wf) : (co.version v).Wf := by
  unfold Checkout.version
  split
  · exact hv
  · refine ⟨hv.pre, ?_⟩
    have hdig : ∀ c ∈ decimal co.commits, IdChar c := fun c hc =>
      .inl ((isDig_iff c).mp (decimal_digits _ c hc))
    have hhex : ∀ c ∈ co.id, IdChar c := by
      intro c hc
      rcases hw.id c hc with h | ⟨h1, h2⟩
      · exact .inl h
      · refine .inr (.inl ⟨h1, ?_⟩)
        rw [char_le_iff] at h2 ⊢
        exact Nat.le_trans h2 (by decide)
    have hlet : ∀ c ∈ p!"devg", IdChar c := by simp [IdChar]
    intro i hi
    simp only [List.mem_cons, List.not_mem_nil, or_false] at hi
    rcases hi with rfl | rfl
    · refine ⟨by simp, fun c hc => ?_⟩
      rcases List.mem_append.mp hc with h | h
      · exact hlet c (by simp at h ⊢; rcases h with rfl | rfl | rfl <;> simp)
      · exact hdig c h
    · refine ⟨by simp, fun c hc => ?_⟩
      rcases List.mem_cons.mp hc with rfl | h
      · exact hlet _ (by simp)
      · exact hhex c h

/-- C98 (partial): if the last tag is that of a semantic version without build, the computed text is
that of a well-formed semantic version with the same numbers and pre-release; a build stays only on
the tagged commit itself.  Missing, because false: commits after a tag with a build
(`release_build_refuted`). -/
theorem release_version_partial (W : Surroundings) (pre cwd : PStr) (co : Checkout) (hw : co.Wf) (v : Ver)
    (hv : v.Wf) (ht : co.tag = pre ++ v.text) (hd : Describes (W.run W.dir) pre co)
    (hb : co.commits = 0 ∨ v.build = []) :
    callGitDescribe W pre cwd = .ok (co.version v).text ∧ (co.version v).Wf ∧
    (co.version v).major = v.major ∧ (co.version v).minor = v.minor ∧
    (co.version v).patch = v.patch ∧ (co.version v).pre = v.pre := by
  refine ⟨?_, version_wf hw hv, ?_⟩
  · rw [release_text W pre cwd v.text co hw ht hd]
    unfold Checkout.version
    by_cases hn : co.commits = 0
    · rw [if_pos hn, if_pos hn]
    · rw [if_neg hn, if_neg hn]
      have hb' := hb.resolve_left hn
      unfold Ver.text
      simp only [hb']
      simp [dotted]
  · unfold Checkout.version
    split <;> simp

/-- C98: nodes built from any commits after the tags of two versions accept one another's version
exactly as the tagged versions would: the numbers before the patch agree and neither is a
pre-release of a `.0` release. -/
theorem release_peers (W W' : Surroundings) (pre cwd pre' cwd' : PStr) (co co' : Checkout) (hw : co.Wf)
    (hw' : co'.Wf) (v v' : Ver) (hv : v.Wf) (hv' : v'.Wf)
    (ht : co.tag = pre ++ v.text) (hd : Describes (W.run W.dir) pre co)
    (hb : co.commits = 0 ∨ v.build = [])
    (ht' : co'.tag = pre' ++ v'.text) (hd' : Describes (W'.run W'.dir) pre' co')
    (hb' : co'.commits = 0 ∨ v'.build = []) :
    ∃ own their, callGitDescribe W pre cwd = .ok own ∧ callGitDescribe W' pre' cwd' = .ok their ∧
      (verifyVersion own their = .ok () ↔ v.major = v'.major ∧ v.minor = v'.minor ∧
        ¬ (v.patch = 0 ∧ v.pre ≠ []) ∧ ¬ (v'.patch = 0 ∧ v'.pre ≠ [])) := by
  obtain ⟨e, wf, e1, e2, e3, e4⟩ := release_version_partial W pre cwd co hw v hv ht hd hb
  obtain ⟨e', wf', e1', e2', e3', e4'⟩ := release_version_partial W' pre' cwd' co' hw' v' hv' ht' hd' hb'
  refine ⟨_, _, e, e', ?_⟩
  rw [(verify_version_decision _ wf _).1, e1, e2, e3, e4]
  constructor
  · rintro ⟨h1, t, twf, hs, h2, h3, h4⟩
    have : t = co'.version v' := by
      rcases hs with hs | ⟨r, hr, _⟩
      · exact (version_text_said t _ _ twf wf').2.1 hs (text_said _)
      · have hnl := said_no_nl wf' (text_said (co'.version v')) '\n' (by rw [hr]; simp)
        exact absurd rfl hnl
    subst this
    rw [e1'] at h2; rw [e2'] at h3; rw [e3', e4'] at h4
    exact ⟨h2.symm, h3.symm, h1, h4⟩
  · rintro ⟨h2, h3, h1, h4⟩
    exact ⟨h1, _, wf', .inl (text_said _), by rw [e1', h2], by rw [e2', h3], by rw [e3', e4']; exact h4⟩

/-! ### The file -/

/-- C98: afterwards `RELEASE-VERSION` in `cwd` holds the version that was returned, unless it must
not be touched or there is none; other files stay, what is right already is not written, and a second
call changes nothing. -/
theorem release_file (W : Surroundings) (pre cwd : PStr) (noUpdate : Bool) :
    let r := getVersion W pre cwd noUpdate
    let W' := W.after cwd r.2
    (∀ e, r.1 = .error e → W' = W) ∧
    (∀ v, r.1 = .ok v → W'.release cwd = if noUpdate then W.release cwd else some v) ∧
    (∀ d, d ≠ cwd → W'.release d = W.release d) ∧
    (∀ v, r.2 = some v → r.1 = .ok v ∧ W.release cwd ≠ some v) ∧
    getVersion W' pre cwd noUpdate = (r.1, none) := by
  have hcall : ∀ t, callGitDescribe (W.after cwd t) pre cwd = callGitDescribe W pre cwd := by
    intro t
    cases t <;> rfl
  have hg : ∀ W : Surroundings, getVersion W pre cwd noUpdate = match callGitDescribe W pre cwd with
      | .error e => (.error e, none)
      | .ok version =>
        if noUpdate then (.ok version, none)
        else if W.release cwd ≠ some version then (.ok version, some version)
        else (.ok version, none) := fun _ => rfl
  intro r W'
  cases hc : callGitDescribe W pre cwd with
  | error e =>
    have hr : r = (.error e, none) := by
      change getVersion W pre cwd noUpdate = _
      rw [hg, hc]
    have hW : W' = W := by change W.after cwd r.2 = W; rw [hr]; rfl
    rw [hW]
    refine ⟨fun _ _ => rfl, fun v h => ?_, fun _ _ => rfl, fun v h => ?_, ?_⟩
    · rw [hr] at h; cases h
    · rw [hr] at h; cases h
    · change r = _; rw [hr]
  | ok version =>
    by_cases hn : noUpdate = true
    · have hr : r = (.ok version, none) := by
        change getVersion W pre cwd noUpdate = _
        rw [hg, hc]; simp only [hn, if_true]
      have hW : W' = W := by change W.after cwd r.2 = W; rw [hr]; rfl
      rw [hW]
      refine ⟨fun _ _ => rfl, fun v _ => by rw [if_pos hn], fun _ _ => rfl, fun v h => ?_, ?_⟩
      · rw [hr] at h; cases h
      · change r = _; rw [hr]
    · by_cases he : W.release cwd = some version
      · have hr : r = (.ok version, none) := by
          change getVersion W pre cwd noUpdate = _
          rw [hg, hc]; simp only [hn, he, if_false, ne_eq, not_true, Bool.false_eq_true]
        have hW : W' = W := by change W.after cwd r.2 = W; rw [hr]; rfl
        rw [hW]
        refine ⟨fun _ _ => rfl, fun v h => ?_, fun _ _ => rfl, fun v h => ?_, ?_⟩
        · rw [if_neg hn, he]
          rw [hr] at h; injection h with h; rw [h]
        · rw [hr] at h; cases h
        · change r = _; rw [hr]
      · have hr : r = (.ok version, some version) := by
          change getVersion W pre cwd noUpdate = _
          rw [hg, hc]; simp only [hn, if_false, ne_eq, he, not_false_iff, if_true, Bool.false_eq_true]
        have hW : W'.release cwd = some version := by
          change (W.after cwd r.2).release cwd = _
          rw [hr]; simp [Surroundings.after]
        refine ⟨fun e h => ?_, fun v h => ?_, fun d hd => ?_, fun v h => ?_, ?_⟩
        · rw [hr] at h; cases h
        · rw [if_neg hn, hW]
          rw [hr] at h; injection h with h; rw [h]
        · change (W.after cwd r.2).release d = _
          rw [hr]; simp [Surroundings.after, hd]
        · rw [hr] at h ⊢
          injection h with h
          subst h
          exact ⟨rfl, he⟩
        · rw [hg]
          have : callGitDescribe W' pre cwd = .ok version := (hcall _).trans hc
          rw [this, hW, hr]
          simp [hn]

/-! ### Where the claim fails -/

private theorem no_plus {s : PStr} (h : ∀ c ∈ s, (∃ d, Decimal c d) ∨ IdChar c ∨ c = '.') :
    s.count '+' = 0 := by
  rw [List.count_eq_zero]
  intro hm
  rcases h _ hm with hd | h | h
  · have := (isDec_iff _).mpr hd
    exact absurd this (by decide)
  · revert h; simp [IdChar]
  · exact absurd h (by decide)

private theorem said_plus {v : Ver} (hw : v.Wf) {s : PStr} (h : v.Said s) :
    s.count '+' = if v.build = [] then 0 else 1 := by
  obtain ⟨a, b, c, ha, hb, hc, rfl⟩ := h
  have hnum : ∀ {t : PStr} {n : Nat}, Numeral t n → t.count '+' = 0 := fun hn => no_plus fun c hc =>
    .inl ((isDec_iff c).mp (((numeral_iff _ _).mp hn).2.1 c hc))
  have hdot : ∀ l : List PStr, (∀ i ∈ l, ∀ c ∈ i, IdChar c) → (dotted l).count '+' = 0 := fun l h =>
    no_plus (dotted_chars l _ (by simp) fun i hi c hc => Or.inr (Or.inl (h i hi c hc)))
  have hp := hdot v.pre fun i hi => (hw.pre i hi).2.1
  have hq := hdot v.build fun i hi => (hw.build i hi).2
  have e1 : (if v.pre = [] then [] else '-' :: dotted v.pre).count '+' = 0 := by
    split
    · rfl
    · rw [List.count_cons, hp]; rfl
  have e2 : (if v.build = [] then [] else '+' :: dotted v.build).count '+' =
      if v.build = [] then 0 else 1 := by
    split
    · rfl
    · rw [List.count_cons, hq]; rfl
  simp only [List.count_append, List.count_cons, hnum ha, hnum hb, hnum hc, e1, e2]
  split <;> rfl

/-- C98: commits after a tag with a build make a text that is no version: the node cannot judge any
version and raises `ValueError` for each. -/
theorem release_build (W : Surroundings) (pre cwd : PStr) (co : Checkout) (hw : co.Wf) (v : Ver)
    (hv : v.Wf) (ht : co.tag = pre ++ v.text) (hd : Describes (W.run W.dir) pre co)
    (hn : co.commits ≠ 0) (hb : v.build ≠ []) :
    ∃ own, callGitDescribe W pre cwd = .ok own ∧ parseVersion own = none ∧
      ∀ t : Ver, t.Wf → verifyVersion own t.text = .error .valueError := by
  refine ⟨_, release_text W pre cwd v.text co hw ht hd, ?_, ?_⟩
  all_goals
    rw [if_neg hn]
    have hnone : parseVersion (v.text ++ p!"+dev" ++ decimal co.commits ++ p!".g" ++ co.id) = none := by
      cases hp : parseVersion (v.text ++ p!"+dev" ++ decimal co.commits ++ p!".g" ++ co.id) with
      | none => rfl
      | some u =>
        exfalso
        have hcount : 2 ≤ (v.text ++ p!"+dev" ++ decimal co.commits ++ p!".g" ++ co.id).count '+' := by
          have h1 := said_plus hv (text_said v)
          rw [if_neg hb] at h1
          simp only [List.count_append, h1]
          have : p!"+dev".count '+' = 1 := by decide
          omega
        obtain ⟨uw, hs⟩ := parse_sound hp
        have h2 := said_plus uw hs
        have h3 : (stripNl (v.text ++ p!"+dev" ++ decimal co.commits ++ p!".g" ++ co.id)).count '+' =
            (v.text ++ p!"+dev" ++ decimal co.commits ++ p!".g" ++ co.id).count '+' := by
          unfold stripNl
          split
          · rename_i hl
            generalize v.text ++ p!"+dev" ++ decimal co.commits ++ p!".g" ++ co.id = t at hl
            have hne : t ≠ [] := by rintro rfl; simp at hl
            have hl' : t.getLast hne = '\n' := by
              rw [List.getLast?_eq_some_getLast hne] at hl; injection hl
            have hd := List.dropLast_concat_getLast hne
            rw [hl'] at hd
            have : t.count '+' = (t.dropLast ++ ['\n']).count '+' := by rw [hd]
            rw [this, List.count_append]
            rfl
          · rfl
        split at h2 <;> omega
  · exact hnone
  · intro t ht
    unfold verifyVersion
    rw [parse_text t ht, hnone]

/-- A machine with a checkout in each directory. -/
private def machine (dir : PStr) (co : PStr → Checkout) : Surroundings where
  dir := dir
  run d args :=
    if args = [p!"git", p!"describe", p!"--tags", p!"--match", p!"v[0-9]*"]
    then some (utf8Enc (co d).described)
    else if args = [p!"git", p!"describe", p!"--tags", p!"--match", p!"v[0-9]*", p!"--abbrev=0"]
    then some (utf8Enc ((co d).tag ++ ['\n'])) else none
  release _ := none

private theorem machine_describes (dir : PStr) (co : PStr → Checkout) (d : PStr) :
    Describes ((machine dir co).run d) p!"v" (co d) := by
  constructor <;> simp [machine]

/-- C98, refuted: a tag with a build is that of a version, the computed text of a later commit is
not. -/
theorem release_build_refuted :
    ∃ (W : Surroundings) (co : Checkout) (v : Ver) (own : PStr), co.Wf ∧ v.Wf ∧
      co.tag = p!"v" ++ v.text ∧ Describes (W.run W.dir) p!"v" co ∧
      callGitDescribe W p!"v" p!"x" = .ok own ∧ parseVersion own = none := by
  have hv : Ver.Wf ⟨2, 17, 1, [], [p!"b1"]⟩ := by
    constructor
    · simp
    · simp [IdChar]
  have hw : Checkout.Wf ⟨p!"v2.17.1+b1", 5, p!"78df3e12"⟩ := by
    constructor <;> decide
  have ht : p!"v2.17.1+b1" = p!"v" ++ Ver.text ⟨2, 17, 1, [], [p!"b1"]⟩ := by
    simp [Ver.text, decimal, digit, dotted]
  obtain ⟨own, h1, h2, _⟩ := release_build (machine p!"x" fun _ => ⟨p!"v2.17.1+b1", 5, p!"78df3e12"⟩)
    p!"v" p!"x" _ hw _ hv ht (machine_describes _ _ _) (by decide) (by decide)
  exact ⟨_, _, _, own, hw, hv, ht, machine_describes _ _ _, h1, h2⟩

/-- C98, refuted: the computed version is not that of the checkout in `cwd` but of the one the process
works in. -/
theorem release_cwd_refuted :
    ∃ (W : Surroundings) (cwd : PStr) (co co' : Checkout), co.Wf ∧ co'.Wf ∧
      Describes (W.run cwd) p!"v" co ∧ co.tag = p!"v2.17.1" ∧ co.commits = 0 ∧
      Describes (W.run W.dir) p!"v" co' ∧
      getVersion W p!"v" cwd false = (.ok p!"0.1.0", some p!"0.1.0") :=
  ⟨machine p!"/elsewhere" fun d => if d = p!"/golem" then ⟨p!"v2.17.1", 0, []⟩ else ⟨p!"v0.1.0", 0, []⟩,
    p!"/golem", _, _, by constructor <;> decide, by constructor <;> decide,
    machine_describes _ _ _, by decide, by decide, machine_describes _ _ _, by decide +kernel⟩

/-- C98, refuted: where git does not answer the file is not used, though it is there. -/
theorem release_fallback_refuted :
    ∃ (W : Surroundings) (cwd : PStr), W.release cwd = some p!"2.17.1" ∧ (∀ d c, W.run d c = none) ∧
      getVersion W p!"v" cwd false = (.error .otherError, none) :=
  ⟨⟨p!"x", fun _ _ => none, fun _ => some p!"2.17.1"⟩, p!"x", rfl, fun _ _ => rfl, by decide +kernel⟩

private def longTag : Checkout := ⟨p!"v0.5.3-rc5-post1", 100, p!"78df3e12"⟩

private def longOwn : PStr := p!"0.5.3-rc5-post1+dev100.g78df3e12"

private def helloOf (v : PStr) : Msg := ⟨.Hello, .int 0, .int 1500000000, .bool false, .none,
  [(p!"rand_val", .none), (p!"proto_id", .int 31), (p!"node_info", .none), (p!"port", .none),
   (p!"client_ver", .str p!"x"), (p!"solve_challenge", .none), (p!"challenge", .none),
   (p!"difficulty", .none), (p!"metadata", .none), (p!"_version", .str v)]⟩

/-- C98, refuted: the computed version need not fit into a `Hello`.  A hundred commits after the tag
`v0.5.3-rc5-post1` (the example in the comment of `version.py`) it has 32 characters, the node accepts
it as a version, and the signature of the node's own `Hello` does not verify for the signer's key. -/
theorem release_hello_refuted :
    ∃ (W : Surroundings) (co : Checkout) (v : Ver) (own : PStr) (E : Env) (m m' : Msg) (key pub b : Bytes),
      co.Wf ∧ v.Wf ∧ v.build = [] ∧ co.tag = p!"v" ++ v.text ∧ Describes (W.run W.dir) p!"v" co ∧
      callGitDescribe W p!"v" p!"x" = .ok own ∧ E.version = own ∧ verifyVersion own own = .ok () ∧
      (∀ x s, E.sign key (E.sha3 x) = .ok s →
        s.length = 65 ∧ E.recover (.bytes s) (E.sha3 x) = some (4 :: pub)) ∧
      m.cls = .Hello ∧ m.sig = .none ∧ m.ty = .int 0 ∧ getAttr m.attrs p!"_version" = .str own ∧
      dump E (fun _ d => .ok d) m (some key) none = (.ok b, m') ∧
      (load E (fun _ d => .ok d) (some b) none (some pub) false 0).2 = .error .invalidSignature := by
  have hv : Ver.Wf ⟨0, 5, 3, [p!"rc5-post1"], []⟩ := by
    constructor
    · intro i hi
      simp at hi
      subst hi
      refine ⟨by simp, by simp [IdChar], ?_⟩
      rintro ⟨_, r, h, _⟩
      cases h
    · simp
  refine ⟨machine p!"x" fun _ => longTag, longTag, ⟨0, 5, 3, [p!"rc5-post1"], []⟩, longOwn,
    { toyEnv with version := longOwn }, helloOf longOwn, _, List.replicate 32 7, List.replicate 64 7, _,
    by constructor <;> decide, hv, rfl, by simp [Ver.text, decimal, digit, dotted, longTag],
    machine_describes _ _ _, by decide +kernel, rfl, by decide +kernel, toy_law, rfl, rfl, rfl,
    by decide +kernel, rfl, by decide +kernel⟩

/-- Non-vacuity: the example in the comment of `version.py`, the tagged commit, and a text that is no
such thing. -/
example :
    callGitDescribe (machine p!"x" fun _ => ⟨p!"v0.5.3-rc5-post1", 5, p!"78df3e12"⟩) p!"v" p!"x"
      = .ok p!"0.5.3-rc5-post1+dev5.g78df3e12" ∧
    callGitDescribe (machine p!"x" fun _ => ⟨p!"v2.17.1", 0, p!"78df3e12"⟩) p!"v" p!"x"
      = .ok p!"2.17.1" ∧
    callGitDescribe (machine p!"x" fun _ => ⟨p!"2.17.1", 0, p!"78df3e12"⟩) p!"v" p!"x"
      = .error .assertionError := by decide +kernel

/-- The hypotheses of `release_peers` are met by it. -/
example : Checkout.Wf ⟨p!"v0.5.3-rc5-post1", 5, p!"78df3e12"⟩ ∧
    p!"v0.5.3-rc5-post1" = p!"v" ++ Ver.text ⟨0, 5, 3, [p!"rc5-post1"], []⟩ ∧
    verifyVersion p!"0.5.3-rc5-post1+dev5.g78df3e12" p!"0.5.7" = .ok () := by
  refine ⟨by constructor <;> decide, by simp [Ver.text, decimal, digit, dotted], by decide +kernel⟩

end Verif.Props
