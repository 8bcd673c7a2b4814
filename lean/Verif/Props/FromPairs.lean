import Verif.Spec.Pairs
import Verif.Lemmas.FDict
import Verif.Lemmas.Slots
import Verif.Lemmas.Toy
/-!
# C41: frozen dictionaries made from sequences of pairs
-/

namespace Verif.Props

open Verif Spec

private def run (E : Env) (c : FDictId) (items : Attrs) (l : List Val) : Res Attrs :=
  match pairsOf l with
  | .ok ps => fdSetAll E (fdConv E c) c items ps
  | .error e =>
    .error (match fdSetAll E (fdConv E c) c items (pairsBefore l) with
      | .error e' => e'
      | .ok _ => e)

private theorem conv_iff {E : Env} {c : FDictId} {k : PStr} {v w : Val} :
    fdConv E c k v = .ok w ↔ Stored E c k v w := by
  unfold Stored fdConv
  cases c with
  | peer =>
    dsimp only
    unfold peerConv
    by_cases h : k = p!"node" ∧ v.asDict.isSome = true
    · rw [if_pos h, if_pos ⟨rfl, h⟩]; rfl
    · rw [if_neg h, if_neg (fun e => h e.2)]
      exact ⟨fun e => by cases e; rfl, fun e => by rw [e]⟩
  | _ =>
    rw [if_neg (by simp)]
    exact ⟨fun e => by cases e; rfl, fun e => by rw [e]; rfl⟩

private theorem conv_error {E : Env} {c : FDictId} {k : PStr} {v : Val} {e : Exc} (h : fdConv E c k v = .error e) :
    c = .peer ∧ k = p!"node" ∧ v.asDict.isSome = true ∧ mkCont E .node v = .error e := by
  unfold fdConv at h
  cases c with
  | peer =>
    dsimp only at h
    unfold peerConv at h
    split at h
    · rename_i hc; exact ⟨rfl, hc.1, hc.2, h⟩
    · cases h
  | _ => cases h

private theorem defaults_present {E : Env} {c : FDictId} {items : Attrs} : ∀ {l : Attrs},
    (∀ k dv, (k, dv) ∈ l → (lookupName k items).isSome = true) → fdDefaults E (fdConv E c) c items l = .ok items
  | [], _ => rfl
  | (k, dv) :: r, h => by
    rw [fdDefaults, if_pos (h k dv (by simp))]
    exact defaults_present fun k dv hm => h k dv (by simp [hm])

private theorem defaults_missing {E : Env} {c : FDictId} {items : Attrs} {k : PStr} {dv : Val} {e : Exc} {post : Attrs}
    (hm : lookupName k items = none) (he : fdSetV E (fdConv E c) c items (.str k) dv = .error e) : ∀ {l : Attrs},
    (∀ k dv, (k, dv) ∈ l → (lookupName k items).isSome = true) →
      fdDefaults E (fdConv E c) c items (l ++ (k, dv) :: post) = .error e
  | [], _ => by
    rw [List.nil_append, fdDefaults, if_neg (by rw [hm]; simp), he]
  | (k, dv) :: r, h => by
    rw [List.cons_append, fdDefaults, if_pos (h k dv (by simp))]
    exact defaults_missing hm he fun k dv hm => h k dv (by simp [hm])

private theorem defaults_plain {E : Env} {c : FDictId} : ∀ {l : Attrs} (items : Attrs),
    (∀ k v, (k, v) ∈ l → fdConv E c k v = .ok v) → fdDefaults E (fdConv E c) c items l = fdDefaults E noConv c items l
  | [], _, _ => rfl
  | (k, v) :: r, items, h => by
    have hr := fun items => defaults_plain (l := r) items (fun k v hm => h k v (by simp [hm]))
    rw [fdDefaults, fdDefaults, hr]
    have : fdSetV E (fdConv E c) c items (.str k) v = fdSetV E noConv c items (.str k) v := by
      unfold fdSetV noConv
      dsimp only
      rw [h k v (by simp)]
    rw [this]
    cases fdSetV E noConv c items (.str k) v with
    | ok i => dsimp only; rw [hr]
    | error e => rfl

private theorem defaults_eq (E : Env) (c : FDictId) (items : Attrs) :
    fdDefaults E (fdConv E c) c items c.items = fdDefaults E noConv c items c.items := by
  cases c with
  | peer =>
    refine defaults_plain items fun k v h => ?_
    simp only [FDictId.items, List.mem_cons, Prod.mk.injEq, List.mem_nil_iff, or_false] at h
    rcases h with ⟨rfl, rfl⟩ | ⟨rfl, rfl⟩ | ⟨rfl, rfl⟩ <;> rfl
  | _ => rfl

private theorem iter_eq (v : Val) : v.iter = elementsOf v := by
  cases v <;> rfl

private theorem mk_run {E : Env} {c : FDictId} {v : Val} {l : List Val} (hd : v.asDict = none)
    (hl : elementsOf v = some l) : mkFDict E c v =
      match run E c [] l with
      | .error e => .error e
      | .ok items =>
        match fdDefaults E (fdConv E c) c items c.items with
        | .error e => .error e
        | .ok items' => .ok (.fdict c items') := by
  unfold mkFDict fdArg fdArgError run
  rw [hd, iter_eq, hl]
  dsimp only
  cases h : pairsOf l with
  | ok ps => dsimp only; unfold fdBuild; rfl
  | error e => rfl

private theorem setV_gives {E : Env} {c : FDictId} {k : PStr} {v w : Val} (hk : k ∈ dictKeys c)
    (hs : Stored E c k v w) (hv : itemOk E c k w) (items : Attrs) :
    fdSetV E (fdConv E c) c items (.str k) v = .ok (setName k w items) := by
  unfold fdSetV
  dsimp only
  rw [conv_iff.mpr hs]
  dsimp only
  unfold fdSet
  rw [(itemOk_iff E c k w).mpr hv]
  dsimp only
  rw [if_pos ((lookupName_isSome _ _).mpr ((keys_listed c).symm ▸ hk))]

private theorem run_gives {E : Env} {c : FDictId} {x : Val} {k : PStr} {v w : Val} (h : elementsOf x = some [.str k, v])
    (hk : k ∈ dictKeys c) (hs : Stored E c k v w) (hv : itemOk E c k w) (items : Attrs) (xs : List Val) :
    run E c items (x :: xs) = run E c (setName k w items) xs := by
  unfold run
  rw [show pairsOf (x :: xs) = match pairsOf xs with
    | .ok r => .ok ((.str k, v) :: r)
    | .error e => .error e by rw [pairsOf, iter_eq, h]; rfl]
  rw [show pairsBefore (x :: xs) = (.str k, v) :: pairsBefore xs by rw [pairsBefore, iter_eq, h]]
  cases pairsOf xs with
  | ok r => dsimp only; rw [fdSetAll, setV_gives hk hs hv]
  | error e => dsimp only; rw [fdSetAll, setV_gives hk hs hv]

private theorem run_bad {E : Env} {c : FDictId} {x k v : Val} (h : elementsOf x = some [k, v]) {items : Attrs} {e : Exc}
    (he : fdSetV E (fdConv E c) c items k v = .error e) (xs : List Val) : run E c items (x :: xs) = .error e := by
  unfold run
  rw [show pairsOf (x :: xs) = match pairsOf xs with
    | .ok r => .ok ((k, v) :: r)
    | .error e => .error e by rw [pairsOf, iter_eq, h]; rfl]
  rw [show pairsBefore (x :: xs) = (k, v) :: pairsBefore xs by rw [pairsBefore, iter_eq, h]]
  cases pairsOf xs with
  | ok r => dsimp only; rw [fdSetAll, he]
  | error e => dsimp only; rw [fdSetAll, he]

private theorem invalid_error {E : Env} {c : FDictId} {k : PStr} {v : Val} (hv : ¬ itemOk E c k v) :
    fdValidate E c k v = .error (.fieldError k) := by
  rw [← itemOk_iff] at hv
  cases c <;> simp only [fdValidate, Validator.run] at hv ⊢ <;> (repeat' split at hv) <;> (repeat' split) <;>
    simp_all

private theorem run_refused {E : Env} {c : FDictId} {x : Val} {e : Exc} (h : Refused E c x e) (items : Attrs)
    (xs : List Val) : run E c items (x :: xs) = .error e := by
  cases h with
  | notIterable h =>
    unfold run
    rw [pairsOf, iter_eq, h, pairsBefore, iter_eq, h]
    rfl
  | notTwo l h hl =>
    unfold run
    rw [pairsOf, iter_eq, h, pairsBefore, iter_eq, h]
    match l, hl with
    | [], _ => rfl
    | [_], _ => rfl
    | [_, _], hl => exact absurd rfl hl
    | _ :: _ :: _ :: _, _ => rfl
  | unhashable k v h hk =>
    refine run_bad h ?_ xs
    unfold fdSetV
    cases k <;> first | (dsimp only; rw [hk]; rfl) | cases hk
  | undeclared k v h hk hn =>
    refine run_bad h ?_ xs
    unfold fdSetV
    cases k with
    | str n =>
      have hcv : fdConv E c n v = .ok v := by
        rw [conv_iff]
        unfold Stored
        rw [if_neg]
        rintro ⟨rfl, rfl, _⟩
        exact hn _ (by decide) rfl
      dsimp only
      rw [hcv]
      dsimp only
      unfold fdSet
      have hn' : n ∉ c.items.map Prod.fst := fun hm => hn n (keys_listed c ▸ hm) rfl
      rw [show fdValidate E c n v = .ok () by
        rw [itemOk_iff]
        cases c <;> simp only [itemOk] <;> simp only [FDictId.items, List.map, List.mem_cons, not_or] at hn' <;> simp_all]
      dsimp only
      rw [if_neg (fun h => hn' ((lookupName_isSome _ _).mp h))]
    | _ => dsimp only; rw [hk]; rfl
  | invalid k v w h hk hs hv =>
    refine run_bad h ?_ xs
    unfold fdSetV
    dsimp only
    rw [conv_iff.mpr hs]
    dsimp only
    unfold fdSet
    rw [invalid_error hv]
  | noNode v e hc h hd hn =>
    subst hc
    refine run_bad h ?_ xs
    unfold fdSetV
    dsimp only
    rw [show fdConv E .peer p!"node" v = .error e by
      show peerConv E _ v = _
      unfold peerConv
      rw [if_pos ⟨rfl, hd⟩]
      exact hn]

/-- What the value given last, if any, leaves for a key. -/
private def Left (E : Env) (c : FDictId) (k : PStr) (given found before : Option Val) : Prop :=
  match given with
  | some v => ∃ w, found = some w ∧ Stored E c k v w
  | none => found = before

private theorem run_pre {E : Env} {c : FDictId} : ∀ {pre : List Val} (items : Attrs) (post : List Val),
    (∀ y ∈ pre, ∃ k v, Gives E c y k v) → ∃ items', run E c items (pre ++ post) = run E c items' post ∧
      ∀ k, Left E c k (lastGiven k pre) (lookupName k items') (lookupName k items)
  | [], items, post, _ => ⟨items, rfl, fun k => rfl⟩
  | x :: xs, items, post, h => by
    obtain ⟨k, w, v, hg, hk, hs, hv⟩ := h x (by simp)
    obtain ⟨items', h1, h2⟩ := run_pre (pre := xs) (setName k w items) post (fun y hy => h y (by simp [hy]))
    refine ⟨items', by rw [List.cons_append, run_gives hg hk hs hv, h1], fun n => ?_⟩
    have h2 := h2 n
    rw [lookupName_setName] at h2
    rw [lastGiven, hg]
    cases he : lastGiven n xs with
    | some u => rw [he] at h2; exact h2
    | none =>
      rw [he] at h2
      dsimp only
      by_cases e : n = k
      · subst e
        rw [if_pos rfl] at h2 ⊢
        exact ⟨w, h2, hs⟩
      · rw [if_neg e] at h2
        rw [if_neg (fun h => e h.symm)]
        exact h2

private theorem defaults_ok (E : Env) {c : FDictId} (hc : c ≠ .peer) :
    ∀ k v, (k, v) ∈ c.items → fdValidate E c k v = .ok () := by
  intro k v h
  cases c <;> first
    | exact absurd rfl hc
    | rfl
    | (simp only [FDictId.items, List.mem_cons, Prod.mk.injEq, List.mem_nil_iff, or_false] at h
       rcases h with ⟨rfl, rfl⟩ | ⟨rfl, rfl⟩ | ⟨rfl, rfl⟩ | ⟨rfl, rfl⟩ | ⟨rfl, rfl⟩ | ⟨rfl, rfl⟩ | ⟨rfl, rfl⟩ <;> rfl)
    | (simp only [FDictId.items, List.mem_cons, Prod.mk.injEq, List.mem_nil_iff, or_false] at h
       rcases h with ⟨rfl, rfl⟩ | ⟨rfl, rfl⟩ | ⟨rfl, rfl⟩ | ⟨rfl, rfl⟩ <;> rfl)

/-- C41: a dictionary gives the same as the list of its pairs. -/
theorem dict_as_pairs (E : Env) (c : FDictId) (d : List (Val × Val)) :
    mkFDict E c (.dict d) = mkFDict E c (.list (d.map fun p => .list [p.1, p.2])) := by
  have h1 : fdArg (.dict d) = .ok d := rfl
  have h2 : fdArg (.list (d.map fun p => .list [p.1, p.2])) = .ok d := pairsOf_wire d
  unfold mkFDict
  rw [h1, h2]

private theorem made {E : Env} {c : FDictId} {v : Val} {l : List Val} {items items' : Attrs} (hd : v.asDict = none)
    (hl : elementsOf v = some l) (h1 : run E c [] l = .ok items)
    (h2 : ∀ k, Left E c k (lastGiven k l) (lookupName k items) none)
    (h3 : fdDefaults E (fdConv E c) c items c.items = .ok items') :
    mkFDict E c v = .ok (.fdict c items') ∧ DeclaredKeys c items' ∧
      ∀ k dv, (k, dv) ∈ dictEntries c →
        match lastGiven k l with
        | some x => Stored E c k x (getAttr items' k)
        | none => getAttr items' k = dv := by
  have hmk : mkFDict E c v = .ok (.fdict c items') := by
    rw [mk_run hd hl, h1]
    dsimp only
    rw [h3]
  refine ⟨hmk, ?_, fun k dv hm => ?_⟩
  · unfold mkFDict at hmk
    split at hmk
    · cases hmk
    obtain ⟨_, e, hi, hf, _⟩ := fdBuild_ok hmk
    cases e
    exact ⟨hi.nodup, fun k => keys_listed c ▸ ⟨hi.known k, hf k⟩⟩
  · unfold getAttr
    rw [fdDefaults_lookup k (defaults_eq E c items ▸ h3)]
    have : lookupName k c.items = some dv := by
      rw [items_listed]
      exact lookupName_of_mem (by cases c <;> decide) hm
    rw [this]
    have h2 := h2 k
    cases he : lastGiven k l with
    | some x =>
      rw [he] at h2
      obtain ⟨w, hw, hs⟩ := h2
      rw [hw]
      exact hs
    | none =>
      rw [he] at h2
      rw [show lookupName k items = none from h2]
      rfl

/-- C41: a sequence of pairs of declared keys and accepted values makes a dictionary that holds, for
each declared key, the value given last, or else the declared default.  A `Peer` needs all its keys,
since the defaults are not accepted for it (`peer_needs_all`). -/
theorem from_pairs (E : Env) (c : FDictId) (v : Val) (l : List Val) (hd : v.asDict = none)
    (hl : elementsOf v = some l) (h : ∀ y ∈ l, ∃ k w, Gives E c y k w)
    (hp : c = .peer → ∀ k ∈ dictKeys c, lastGiven k l ≠ none) :
    ∃ items, mkFDict E c v = .ok (.fdict c items) ∧ DeclaredKeys c items ∧
      ∀ k dv, (k, dv) ∈ dictEntries c →
        match lastGiven k l with
        | some x => Stored E c k x (getAttr items k)
        | none => getAttr items k = dv := by
  obtain ⟨items, h1, h2⟩ := run_pre (c := c) [] [] h
  rw [List.append_nil, show run E c items [] = .ok items from rfl] at h1
  have : ∃ items', fdDefaults E (fdConv E c) c items c.items = .ok items' := by
    by_cases hc : c = .peer
    · refine ⟨items, defaults_present fun k dv hm => ?_⟩
      have hk : k ∈ dictKeys c := keys_listed c ▸ List.mem_map.mpr ⟨_, hm, rfl⟩
      have h2 := h2 k
      cases he : lastGiven k l with
      | none => exact absurd he (hp hc k hk)
      | some x =>
        rw [he] at h2
        obtain ⟨w, hw, _⟩ := h2
        rw [hw]; rfl
    · rw [defaults_eq]
      exact fdDefaults_total (E := E) (c := c) (l := c.items) (items := items)
        (fun k v hm => ⟨List.mem_map.mpr ⟨_, hm, rfl⟩, defaults_ok E hc k v hm⟩)
  obtain ⟨items', h3⟩ := this
  exact ⟨items', made hd hl h1 h2 h3⟩

/-- C41: otherwise the first element that is refused decides what is raised. -/
theorem first_refused (E : Env) (c : FDictId) (v : Val) (pre post : List Val) (x : Val) (e : Exc)
    (hd : v.asDict = none) (hl : elementsOf v = some (pre ++ x :: post)) (h : ∀ y ∈ pre, ∃ k w, Gives E c y k w)
    (hx : Refused E c x e) : mkFDict E c v = .error e := by
  obtain ⟨items, h1, _⟩ := run_pre (c := c) [] (x :: post) h
  rw [mk_run hd hl, h1, run_refused hx]

/-- C41: and every element gives an item or is refused. -/
theorem given_or_refused (E : Env) (c : FDictId) (x : Val) :
    (∃ k w, Gives E c x k w) ∨ ∃ e, Refused E c x e := by
  cases h : elementsOf x with
  | none => exact .inr ⟨_, .notIterable h⟩
  | some l =>
    by_cases hl : l.length = 2
    · match l, hl with
      | [k, v], _ =>
        cases hk : k.hashable with
        | false => exact .inr ⟨_, .unhashable k v h hk⟩
        | true =>
          by_cases hn : ∃ n ∈ dictKeys c, k = .str n
          · obtain ⟨n, hm, rfl⟩ := hn
            cases hcv : fdConv E c n v with
            | ok w =>
              have hs := conv_iff.mp hcv
              by_cases hv : itemOk E c n w
              · exact .inl ⟨n, w, v, h, hm, hs, hv⟩
              · exact .inr ⟨_, .invalid n v w h hm hs hv⟩
            | error e =>
              obtain ⟨hc, rfl, hd, hn⟩ := conv_error hcv
              exact .inr ⟨e, .noNode v e hc h hd hn⟩
          · exact .inr ⟨_, .undeclared k v h hk (fun n hm e => hn ⟨n, hm, e⟩)⟩
    · exact .inr ⟨_, .notTwo l h hl⟩

/-- C41: a sequence that is accepted otherwise but leaves out a key of a `Peer` is refused with an
error that names the first such key, when `None` is no address. -/
theorem peer_needs_all (E : Env) (v : Val) (l : List Val) (hip : E.ipOk .none = false) (hd : v.asDict = none)
    (hl : elementsOf v = some l) (h : ∀ y ∈ l, ∃ k w, Gives E .peer y k w) (pre post : List PStr) (k : PStr)
    (hk : dictKeys .peer = pre ++ k :: post) (hpre : ∀ n ∈ pre, lastGiven n l ≠ none)
    (hm : lastGiven k l = none) : mkFDict E .peer v = .error (.fieldError k) := by
  obtain ⟨items, h1, h2⟩ := run_pre (c := .peer) [] [] h
  rw [List.append_nil, show run E .peer items [] = .ok items from rfl] at h1
  rw [mk_run hd hl, h1]
  dsimp only
  rw [← keys_listed] at hk
  obtain ⟨l1, l2, hi, rfl, h5⟩ := List.map_eq_append_iff.mp hk
  obtain ⟨⟨k', dv⟩, l3, rfl, rfl, rfl⟩ := List.map_eq_cons_iff.mp h5
  have hdv : fdSetV E (fdConv E .peer) .peer items (.str k') dv = .error (.fieldError k') := by
    have : (k', dv) ∈ FDictId.peer.items := by rw [hi]; simp
    simp only [FDictId.items, List.mem_cons, Prod.mk.injEq, List.mem_nil_iff, or_false] at this
    rcases this with ⟨rfl, rfl⟩ | ⟨rfl, rfl⟩ | ⟨rfl, rfl⟩
    · have : fdValidate E .peer p!"address" .none = .error (.fieldError p!"address") := by
        show Validator.ipaddress.run E p!"address" .none = _
        unfold Validator.run
        rw [show Validator.ipaddress.accepts E .none = false from hip]; rfl
      show fdSet E .peer items p!"address" .none = _
      unfold fdSet
      rw [this]
    · rfl
    · rfl
  have h2k := h2 k'
  rw [hm] at h2k
  rw [hi, defaults_missing h2k hdv fun n d hn => ?_]
  have h2 := h2 n
  cases he : lastGiven n l with
  | none => exact absurd he (hpre n (List.mem_map.mpr ⟨_, hn, rfl⟩))
  | some x =>
    rw [he] at h2
    obtain ⟨w, hw, _⟩ := h2
    rw [hw]; rfl

/-- A refused value in front of something that is not a pair, and behind it. -/
example : mkFDict toyEnv .computeTaskDef (.list [.list [.str p!"deadline", .int 3],
      .list [.str p!"task_id", .int 1], .int 5]) = .error (.fieldError p!"task_id") ∧
    mkFDict toyEnv .computeTaskDef (.list [.list [.str p!"deadline", .int 3], .list [.int 1],
      .list [.str p!"task_id", .int 1]]) = .error .valueError ∧
    Refused toyEnv .computeTaskDef (.list [.str p!"task_id", .int 1]) (.fieldError p!"task_id") ∧
    Gives toyEnv .computeTaskDef (.list [.str p!"deadline", .int 3]) p!"deadline" (.int 3) := by
  refine ⟨by decide +kernel, by decide +kernel, .invalid _ _ _ rfl (by decide) rfl ?_, _, rfl, by decide, rfl, ?_⟩
  · rw [← itemOk_iff]; decide +kernel
  · rw [← itemOk_iff]; decide +kernel

/-- A node given as a dictionary is made a node; a peer without a port is refused. -/
example : (match mkFDict { toyEnv with ipOk := fun v => v == .str p!"10.0.0.1" } .peer
        (.list [.list [.str p!"node", .dict [(.str p!"node_name", .str p!"Ada"), (.str p!"key", .str p!"00")]],
          .list [.str p!"port", .int 7], .list [.str p!"address", .str p!"10.0.0.1"]]) with
      | .ok (.fdict .peer l) => (match getAttr l p!"node" with | .cont .node _ => true | _ => false)
      | _ => false) = true ∧
    mkFDict { toyEnv with ipOk := fun v => v == .str p!"10.0.0.1" } .peer
      (.list [.list [.str p!"address", .str p!"10.0.0.1"]]) = .error (.fieldError p!"port") := by
  decide +kernel

end Verif.Props
