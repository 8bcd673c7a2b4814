import Verif.Props.Comparable
import Verif.Lemmas.MadeTasks
/-!
# Factories are called with what they can take, down to the tasks
-/

set_option linter.unusedSimpArgs false

namespace Verif

open Spec

/-- A category of files. -/
def isCategory (kv : PStr × Val) : Bool :=
  kv.1 == p!"category" && match kv.2 with
    | .enum .ftCategory s => EnumId.ftCategory.values.contains s && decide (s.length < 1000)
    | _ => false

/-- Which calls go well. -/
abbrev Accepts := Cls → Option (List Attrs) → Attrs → Bool

/-- A declaration with arguments for it. -/
def okDecl (ok : Accepts) (kw : Attrs) : Decl → Bool
  | .const v => smallB v
  | .text start => decide (start.length < 1000)
  | .node => kw.isEmpty
  | .files each => kw.isEmpty && decide (each.length < 1000) && each.all (fun args => args.all isCategory)
  | .message c args other => ok c other (mergeArgs args kw)
  | _ => true

/-- A hook with the arguments of the call. -/
def okHook (ok : Accepts) (c : Cls) (name : PStr) (kw : Attrs) : Hook → Bool
  | .optional c' =>
    let args := subArgs name kw
    let rest := args.filter fun kv => kv.1 != p!"_generate"
    c.payload.contains name &&
    if rest ≠ [] ∨ (getAttr args p!"_generate").truthy then ok c' none rest else smallB (getAttr kw name)
  | .operation member => c.payload.contains p!"operation" && decide (member.length < 1000)
  | .generate c' =>
    let args := subArgs name kw
    c.payload.contains name &&
    if (getAttr kw name).truthy then smallB (getAttr kw name)
    else if args = [] then true
    else
      match lookupName p!"generate" args with
      | none => false
      | some g => if g.truthy then ok c' none (args.filter fun kv => kv.1 != p!"generate") else true
  | .acceptedList =>
    let args := subArgs name kw
    let count := getAttr args p!"generate"
    c.payload.contains name &&
    if (getAttr kw name).truthy then smallB (getAttr kw name)
    else if count.truthy then
      match rounds count with
      | .error _ => false
      | .ok n => decide (n < 1000) && ok .SubtaskResultsAccepted none (args.filter fun kv => kv.1 != p!"generate")
    else true
  | .sharedReport => c == .VerdictReportComputedTask && kw.isEmpty

/-- A call of a factory that goes well. -/
def okCall : Nat → Accepts
  | 0, _, _, _ => false
  | n + 1, c, files, kw =>
    if c = .TaskToCompute ∨ c = .WantToComputeTask then kw.isEmpty
    else
      match c.factory with
      | none => false
      | some f =>
        decide (((withFiles files f.decls).map Prod.fst).Nodup) &&
        (withFiles files f.decls).all (fun nd => c.payload.contains nd.1 &&
          match lookupName nd.1 kw with
          | some v => smallB v
          | none => okDecl (okCall n) (subArgs nd.1 kw) nd.2) &&
        (extraArgs f.roots kw).isEmpty && (subArgs p!"sign" kw).isEmpty &&
        f.hooks.all (fun nh => okHook (okCall n) c nh.1 kw nh.2)

/-- What is known of a made message. -/
def Good (E : Env) (c : Cls) (kw : Attrs) (m : Msg) : Prop :=
  Fine E c m ∧ (c = .ForceReportComputedTask → kw = [] →
    ∃ x : Msg, getAttr m.attrs p!"report_computed_task" = x.val ∧ x.cls = .ReportComputedTask ∧ WellTypedMsg E x) ∧
  (c = .VerdictReportComputedTask → kw = [] → verdictValid m = .ok ())

/-- Calls that go well make messages. -/
def Makes (E : Env) (mk : Maker) (ok : Accepts) : Prop :=
  ∀ path c files kw, ok c files kw = true → ∃ m, mk path c files kw = .ok m ∧ Good E c kw m

theorem member_short : ∀ e : EnumId, ∀ s ∈ e.values, s.length < 1000 := by
  intro e; cases e <;> decide +kernel

theorem node_factory {E : Env} {name : PStr} (hn : name.length < 2 ^ 32) :
    ∃ v, nodeFactory E name [] = .ok v ∧ SimpleOk E .node v ∧ Writable v := by
  have hk : (p!"00adbeef" ++ (List.replicate 15 p!"deadbeef").flatten).length ≤ 128 := by decide +kernel
  unfold nodeFactory
  generalize (p!"00adbeef" ++ (List.replicate 15 p!"deadbeef").flatten) = key at hk
  exact node_total (E := E) hk hn

theorem file_total {E : Env} {keccak : Bytes → Bytes} {d : Draws} {path : List PStr} {kw : Attrs}
    (hw : World E keccak d) (hk : kw.all isCategory = true) : ∃ v, fileFactory E d path kw = .ok v ∧ Writable v := by
  have hcat : ∀ k v, (k, v) ∈ kw → k = p!"category" ∧ ∃ s ∈ EnumId.ftCategory.values, v = .enum .ftCategory s := by
    intro k v hm
    have := List.all_eq_true.mp hk _ hm
    unfold isCategory at this
    simp only [Bool.and_eq_true, beq_iff_eq] at this
    refine ⟨this.1, ?_⟩
    have h2 := this.2
    split at h2
    · rename_i s e
      simp only [Bool.and_eq_true, List.contains_iff_mem] at h2
      exact ⟨_, h2.1, rfl⟩
    · cases h2
  have absent : ∀ n, n ≠ p!"category" → lookupName n kw = none := fun n hn =>
    lookup_absent fun k v hm e => hn (e ▸ (hcat k v hm).1)
  have hextra : extraArgs [p!"path", p!"checksum", p!"size"] kw = kw := by
    unfold extraArgs
    rw [List.filter_eq_self]
    rintro ⟨k, v⟩ hm
    rw [(hcat k v hm).1]
    dsimp only
    decide
  have hform : fileFactory E d path kw = mkFDict E .fileInfo (.dict (([(p!"path", .str (d.text (path ++ [p!"path"]))),
      (p!"checksum", .str (p!"sha1:" ++ d.text (path ++ [p!"checksum"]))),
      (p!"size", .int (d.num (path ++ [p!"size"])))] ++ kw : Attrs).map fun kv => (.str kv.1, kv.2))) := by
    unfold fileFactory
    simp only [bind, Except.bind]
    rw [given_none (absent p!"path" (by decide))]
    dsimp only
    rw [given_none (absent p!"checksum" (by decide))]
    dsimp only
    rw [given_none (absent p!"size" (by decide)), hextra]
  have hmem : ∀ k x, (k, x) ∈ ([(p!"path", .str (d.text (path ++ [p!"path"]))),
      (p!"checksum", .str (p!"sha1:" ++ d.text (path ++ [p!"checksum"]))),
      (p!"size", .int (d.num (path ++ [p!"size"])))] ++ kw : Attrs) →
      k ∈ FDictId.fileInfo.items.map Prod.fst ∧ Writable x ∧ itemOk E .fileInfo k x := by
    intro k x hm
    rw [List.mem_append] at hm
    rcases hm with hm | hm
    · simp only [List.mem_cons, List.not_mem_nil, or_false, Prod.mk.injEq] at hm
      have t1 := hw.draws.text (path ++ [p!"path"])
      have t2 := hw.draws.text (path ++ [p!"checksum"])
      rcases hm with ⟨rfl, rfl⟩ | ⟨rfl, rfl⟩ | ⟨rfl, rfl⟩
      · exact ⟨by decide, str_writable (by omega), fun e => absurd e (by decide)⟩
      · exact ⟨by decide, str_writable (by simp only [List.length_append, List.length_cons, List.length_nil]; omega),
          fun e => absurd e (by decide)⟩
      · exact ⟨by decide, small_writable (hw.draws.num _), fun e => absurd e (by decide)⟩
    · obtain ⟨rfl, s, hs, rfl⟩ := hcat k x hm
      exact ⟨by decide, by simp only [Writable]; have := member_short _ s hs; omega, fun _ => ⟨s, hs, rfl⟩⟩
  have hok : ∃ v, fileFactory E d path kw = .ok v := by
    rw [hform]
    refine (fdBuild_iff (E := E) (c := .fileInfo) ?_).mpr ?_
    · intro k v hm
      rw [itemOk_iff]
      simp only [itemOk]
      intro h
      simp only [FDictId.items, List.mem_cons, List.not_mem_nil, or_false, Prod.mk.injEq] at hm
      subst h
      rcases hm with ⟨e, _⟩ | ⟨e, _⟩ | ⟨e, _⟩ | ⟨_, rfl⟩
      · cases e
      · cases e
      · cases e
      · exact ⟨_, by decide, rfl⟩
    · intro key v hm
      obtain ⟨⟨k, x⟩, hx, e⟩ := List.mem_map.mp hm
      injection e with e1 e2
      subst e1 e2
      exact ⟨k, rfl, (hmem k x hx).1, (hmem k x hx).2.2⟩
  obtain ⟨v, hv⟩ := hok
  refine ⟨v, hv, ?_⟩
  rw [hform] at hv
  exact fdict_writable (by decide) (fun k x hm => (hmem k x hm).2.1) hv

theorem files_total {E : Env} {keccak : Bytes → Bytes} {d : Draws} {path : List PStr} (hw : World E keccak d) :
    ∀ (each : List Attrs) (i : Nat), each.all (fun args => args.all isCategory) = true →
      ∃ vs, filesFactory E d path [] i each = .ok vs ∧ vs.length = each.length ∧ WritableL vs
  | [], _, _ => ⟨[], rfl, rfl, trivial⟩
  | args :: rest, i, h => by
    simp only [List.all_cons, Bool.and_eq_true] at h
    obtain ⟨v, h1, h2⟩ := file_total (path := path ++ [Nat.toDigits 10 i]) (kw := args) hw h.1
    obtain ⟨vs, h3, h4, h5⟩ := files_total (path := path) hw rest (i + 1) h.2
    refine ⟨v :: vs, ?_, by rw [List.length_cons, h4, List.length_cons], ?_⟩
    · unfold filesFactory
      have : mergeArgs args (subArgs (Nat.toDigits 10 i) []) = args := by
        unfold mergeArgs subArgs
        simp [lookupName]
      dsimp only
      rw [this, h1, h3]
      rfl
    · simp only [WritableL]; exact ⟨h2, h5⟩

/-- The value of a declaration. -/
theorem value_total {E : Env} {keccak : Bytes → Bytes} {d : Draws} {mk : Maker} {ok : Accepts} {path : List PStr}
    {kw : Attrs} {dcl : Decl} (hw : World E keccak d) (hm : Makes E mk ok) (h : okDecl ok kw dcl = true) :
    ∃ v, dcl.value E d mk path kw = .ok v ∧ Writable v ∧
      ∀ c args other, dcl = .message c args other → ∃ x : Msg, v = x.val ∧
        mk path c other (mergeArgs args kw) = .ok x ∧ Good E c (mergeArgs args kw) x := by
  cases dcl with
  | const v => exact ⟨v, rfl, fits_small _ h, fun _ _ _ e => nomatch e⟩
  | text start =>
    refine ⟨_, rfl, str_writable ?_, fun _ _ _ e => nomatch e⟩
    have h : start.length < 1000 := by simpa [okDecl] using h
    have := hw.draws.text path
    rw [List.length_append]
    omega
  | num => exact ⟨_, rfl, small_writable (hw.draws.num path), fun _ _ _ e => nomatch e⟩
  | bytes =>
    refine ⟨_, rfl, ?_, fun _ _ _ e => nomatch e⟩
    simp only [Writable, hw.draws.bytes path]; decide
  | choice e =>
    refine ⟨_, rfl, ?_, fun _ _ _ e => nomatch e⟩
    have := member_short e _ (hw.draws.member path e)
    simp only [Writable]; omega
  | now => exact ⟨_, rfl, clock_writable (hw.draws.now path), fun _ _ _ e => nomatch e⟩
  | key =>
    refine ⟨.str (hexlify (d.bytes path)), ?_, key_writable (hw.draws.bytes path), fun _ _ _ e => nomatch e⟩
    unfold Decl.value
    rw [encodeHex_key (hw.draws.bytes path)]
    rfl
  | node =>
    have h : kw = [] := by simpa [okDecl] using h
    subst h
    obtain ⟨v, h1, _, h2⟩ := node_factory (E := E) (hw.draws.text path)
    exact ⟨v, h1, h2, fun _ _ _ e => nomatch e⟩
  | files each =>
    simp only [okDecl, Bool.and_eq_true, List.isEmpty_iff, decide_eq_true_eq] at h
    obtain ⟨⟨rfl, hl⟩, h⟩ := h
    obtain ⟨vs, h1, h2, h3⟩ := files_total (path := path) hw each 0 h
    refine ⟨.list vs, ?_, ?_, fun _ _ _ e => nomatch e⟩
    · unfold Decl.value
      dsimp only
      rw [h1]
      rfl
    · simp only [Writable]; exact ⟨by omega, h3⟩
  | message c args other =>
    obtain ⟨x, h1, h2⟩ := hm path c other _ h
    refine ⟨x.val, ?_, h2.1.val, ?_⟩
    · unfold Decl.value
      dsimp only
      rw [h1]
      rfl
    · intro c' args' other' e
      injection e with e1 e2 e3
      subst e1 e2 e3
      exact ⟨x, rfl, h1, h2⟩

theorem declared_total {E : Env} {keccak : Bytes → Bytes} {d : Draws} {mk : Maker} {ok : Accepts} {path : List PStr}
    {kw : Attrs} (hw : World E keccak d) (hm : Makes E mk ok) :
    ∀ L : List (PStr × Decl), (∀ nd ∈ L, (match lookupName nd.1 kw with
          | some v => smallB v
          | none => okDecl ok (subArgs nd.1 kw) nd.2) = true) →
      ∃ vs, declared E d mk path kw L = .ok vs ∧ vs.map Prod.fst = L.map Prod.fst ∧
        (∀ k v, (k, v) ∈ vs → Writable v) ∧
        ∀ n c args other, (n, Decl.message c args other) ∈ L → lookupName n kw = none →
          ∃ x : Msg, (n, x.val) ∈ vs ∧ mk (path ++ [n]) c other (mergeArgs args (subArgs n kw)) = .ok x ∧
            Good E c (mergeArgs args (subArgs n kw)) x
  | [], _ => ⟨[], rfl, rfl, (fun _ _ h => nomatch h), fun _ _ _ _ h => nomatch h⟩
  | (n, dcl) :: rest, h => by
    obtain ⟨vs, h1, h2, h3, h4⟩ := declared_total (path := path) hw hm rest fun nd hnd => h nd (List.mem_cons_of_mem _ hnd)
    have hhere := h (n, dcl) List.mem_cons_self
    have hv : ∃ v, given kw n (dcl.value E d mk (path ++ [n]) (subArgs n kw)) = .ok v ∧ Writable v ∧
        ∀ c args other, dcl = .message c args other → lookupName n kw = none → ∃ x : Msg, v = x.val ∧
          mk (path ++ [n]) c other (mergeArgs args (subArgs n kw)) = .ok x ∧
          Good E c (mergeArgs args (subArgs n kw)) x := by
      unfold given
      dsimp only at hhere
      cases hl : lookupName n kw with
      | some v =>
        rw [hl] at hhere
        exact ⟨v, rfl, fits_small _ hhere, fun _ _ _ _ e => nomatch e⟩
      | none =>
        rw [hl] at hhere
        obtain ⟨v, g1, g2, g3⟩ := value_total (path := path ++ [n]) hw hm hhere
        exact ⟨v, g1, g2, fun c args other e _ => g3 c args other e⟩
    obtain ⟨v, g1, g2, g3⟩ := hv
    refine ⟨(n, v) :: vs, ?_, by rw [List.map_cons, h2, List.map_cons], ?_, ?_⟩
    · unfold declared
      rw [g1, h1]
    · intro k x hm'
      rcases List.mem_cons.mp hm' with e | hm'
      · injection e with _ e
        subst e
        exact g2
      · exact h3 k x hm'
    · intro k c args other hm' hl
      rcases List.mem_cons.mp hm' with e | hm'
      · injection e with e1 e2
        subst e1
        obtain ⟨x, rfl, i1, i2⟩ := g3 c args other e2.symm hl
        exact ⟨x, List.mem_cons_self, i1, i2⟩
      · obtain ⟨x, i0, i1, i2⟩ := h4 k c args other hm' hl
        exact ⟨x, List.mem_cons_of_mem _ i0, i1, i2⟩

theorem many_total {E : Env} {mk : Maker} {ok : Accepts} {path : List PStr} {c : Cls} {kw : Attrs}
    (hm : Makes E mk ok) (h : ok c none kw = true) :
    ∀ (n i : Nat), ∃ l, makeMany mk path c kw i n = .ok l ∧ l.length = n ∧ WritableL l
  | 0, _ => ⟨[], rfl, rfl, trivial⟩
  | n + 1, i => by
    obtain ⟨m, h1, h2⟩ := hm (path ++ [Nat.toDigits 10 i]) c none kw h
    obtain ⟨l, h3, h4, h5⟩ := many_total (path := path) hm h n (i + 1)
    refine ⟨m.val :: l, ?_, by rw [List.length_cons, h4], ?_⟩
    · unfold makeMany
      rw [h1, h3]
    · simp only [WritableL]; exact ⟨h2.1.val, h5⟩

theorem hook_total {E : Env} {G : Getter} {d : Draws} {mk : Maker} {ok : Accepts}
    {path : List PStr} {c : Cls} {name : PStr} {kw : Attrs} {m : Msg} {hook : Hook} (hm : Makes E mk ok)
    (h : okHook ok c name kw hook = true) (hf : Fine E c m)
    (hshared : hook = .sharedReport → c = .VerdictReportComputedTask → kw = [] → ∃ m', verdictReport E G (d.now path) m [] = .ok m' ∧ Fine E c m') :
    ∃ m', hook.run E G d mk path name kw m = .ok m' ∧ Fine E c m' := by
  cases hook with
  | «optional» c' =>
    simp only [okHook, Bool.and_eq_true, List.contains_iff_mem] at h
    unfold Hook.run
    dsimp only
    split
    · rename_i hc
      rw [if_pos hc] at h
      obtain ⟨x, h1, h2⟩ := hm (path ++ [name]) c' none _ h.2
      rw [h1]
      exact ⟨_, rfl, hf.set h.1 h2.1.val⟩
    · rename_i hc
      rw [if_neg hc] at h
      exact ⟨_, rfl, hf.set h.1 (fits_small _ h.2)⟩
  | operation member =>
    simp only [okHook, Bool.and_eq_true, List.contains_iff_mem, decide_eq_true_eq] at h
    unfold Hook.run
    dsimp only
    split
    · exact ⟨_, rfl, hf.set h.1 (by simp only [Writable]; omega)⟩
    · exact ⟨_, rfl, hf⟩
  | generate c' =>
    simp only [okHook, Bool.and_eq_true, List.contains_iff_mem] at h
    obtain ⟨hp, h⟩ := h
    unfold Hook.run
    dsimp only
    split
    · rename_i hc
      rw [if_pos hc] at h
      exact ⟨_, rfl, hf.set hp (fits_small _ h)⟩
    · rename_i hc
      rw [if_neg hc] at h
      split
      · exact ⟨_, rfl, hf⟩
      · rename_i hne
        rw [if_neg hne] at h
        split
        · rename_i e
          rw [e] at h
          cases h
        · rename_i g e
          rw [e] at h
          dsimp only at h
          split
          · rename_i ht
            rw [if_pos ht] at h
            obtain ⟨x, h1, h2⟩ := hm (path ++ [name]) c' none _ h
            rw [h1]
            exact ⟨_, rfl, hf.set hp h2.1.val⟩
          · exact ⟨_, rfl, hf⟩
  | acceptedList =>
    simp only [okHook, Bool.and_eq_true, List.contains_iff_mem] at h
    obtain ⟨hp, h⟩ := h
    unfold Hook.run
    dsimp only
    split
    · rename_i hc
      rw [if_pos hc] at h
      exact ⟨_, rfl, hf.set hp (fits_small _ h)⟩
    · rename_i hc
      rw [if_neg hc] at h
      split
      · rename_i ht
        rw [if_pos ht] at h
        split
        · rename_i e
          rw [e] at h
          cases h
        · rename_i n e
          rw [e] at h
          simp only [Bool.and_eq_true, decide_eq_true_eq] at h
          obtain ⟨l, h1, h2, h3⟩ := many_total (path := path ++ [name]) hm h.2 n 0
          rw [h1]
          dsimp only
          split
          · exact ⟨_, rfl, hf⟩
          · exact ⟨_, rfl, hf.set hp (by simp only [Writable]; exact ⟨by omega, h3⟩)⟩
      · exact ⟨_, rfl, hf⟩
  | sharedReport =>
    simp only [okHook, Bool.and_eq_true, beq_iff_eq, List.isEmpty_iff] at h
    obtain ⟨hc, rfl⟩ := h
    exact hshared rfl hc rfl

theorem args_nil (E : Env) (c : Cls) : ArgsOk E c [] where
  fields _ _ _ _ hm _ := nomatch hm
  files _ _ hm _ := nomatch hm
  data _ _ hm _ _ _ := nomatch hm
  shared _ _ _ hm := nomatch hm
  version _ h := nomatch h

theorem hooks_total {E : Env} {G : Getter} {d : Draws} {mk : Maker} {ok : Accepts}
    {path : List PStr} {c : Cls} {kw : Attrs} (hm : Makes E mk ok)
    (hc : c ≠ .VerdictReportComputedTask) :
    ∀ (hooks : List (PStr × Hook)) (m : Msg), hooks.all (fun nh => okHook ok c nh.1 kw nh.2) = true → Fine E c m →
      ∃ m', runHooks E G d mk path kw hooks m = .ok m' ∧ Fine E c m'
  | [], m, _, hf => ⟨m, rfl, hf⟩
  | (name, hook) :: rest, m, h, hf => by
    simp only [List.all_cons, Bool.and_eq_true] at h
    obtain ⟨m1, h1, h2⟩ := hook_total (G := G) (d := d) (path := path) hm h.1 hf (fun _ e => absurd e hc)
    obtain ⟨m2, h3, h4⟩ := hooks_total (path := path) hm hc rest m1 h.2 h2
    exact ⟨m2, by unfold runHooks; rw [h1]; exact h3, h4⟩

theorem signHook_none {E : Env} {kw : Attrs} {m : Msg} (h : subArgs p!"sign" kw = []) : signHook E kw m = .ok m := by
  unfold signHook signArg
  rw [h]
  rfl

/-- A verdict about one report is valid. -/
theorem verdict_valid {E : Env} {m f a x : Msg}
    (hf : getAttr m.attrs p!"force_report_computed_task" = f.val)
    (hfr : getAttr f.attrs p!"report_computed_task" = x.val)
    (ha : getAttr m.attrs p!"ack_report_computed_task" = a.val)
    (har : getAttr a.attrs p!"report_computed_task" = x.val)
    (hc : x.cls = .ReportComputedTask) (hw : WellTypedMsg E x) : verdictValid m = .ok () := by
  have hx : ∀ (y : Msg) n, attrOf y.val n = .ok (getAttr y.attrs n) := fun _ _ => rfl
  have ht : valEq (getAttr x.attrs p!"task_to_compute") (getAttr x.attrs p!"task_to_compute") = .ok true := by
    unfold WellTypedMsg at hw
    rw [hc, if_neg (by decide)] at hw
    generalize hv : getAttr x.attrs p!"task_to_compute" = v
    have hs : (p!"task_to_compute", ⟨.TaskToCompute, false, false⟩) ∈ Cls.ReportComputedTask.msgSlots := by decide
    cases v with
    | msg c ty ts enc sig as =>
      exact Props.nested_equals_itself E .ReportComputedTask x.attrs _ _ hw hs ⟨c, ty, ts, enc, sig, as⟩ (by
        rw [hv]; exact List.mem_singleton.mpr rfl)
    | _ =>
      exfalso
      cases hw with
      | mk _ _ names fields slots heads nested =>
        have := slots p!"task_to_compute" _ _ (mem_getAttr (by rw [names]; decide)) (show _ = some ⟨.TaskToCompute, false, false⟩ from rfl)
        rw [hv] at this
        rcases this with ⟨_, h⟩ | h <;> cases h
  unfold verdictValid
  rw [ha, hx]
  dsimp only
  rw [har, hx]
  dsimp only
  rw [hf, hx]
  dsimp only
  rw [hfr, hx]
  dsimp only
  rw [ht]

theorem makes_total {E : Env} {G : Getter} {keccak : Bytes → Bytes} {d : Draws} (hw : World E keccak d) :
    ∀ n, Makes E (makeAt E G keccak d n) (okCall n)
  | 0 => fun _ _ _ _ h => nomatch h
  | n + 1 => fun path c files kw h => by
    have ih := makes_total (G := G) hw n
    unfold okCall at h
    unfold makeAt
    by_cases ht : c = .TaskToCompute
    · subst ht
      simp only [true_or, if_true, List.isEmpty_iff] at h ⊢
      subst h
      obtain ⟨m, h1, h2⟩ := task_total (G := G) (kw := []) hw.hash (hw.draws.task path) (hw.signs path)
        (fun _ _ hm => nomatch hm) List.nodup_nil
      exact ⟨m, h1, h2, (fun e => nomatch e), fun e => nomatch e⟩
    by_cases ho : c = .WantToComputeTask
    · subst ho
      simp only [or_true, if_true, reduceCtorEq, if_false, List.isEmpty_iff] at h ⊢
      subst h
      obtain ⟨m, h1, h2, _⟩ := offer_total (G := G) (kw := []) hw.hash (hw.draws.task path).offer
        (fun _ _ hm => nomatch hm) List.nodup_nil
      exact ⟨m, h1, h2, (fun e => nomatch e), fun e => nomatch e⟩
    rw [if_neg (by simp [ht, ho])] at h
    rw [if_neg ht, if_neg ho]
    cases hf : c.factory with
    | none => rw [hf] at h; cases h
    | some f =>
      rw [hf] at h
      simp only [Bool.and_eq_true, decide_eq_true_eq, List.isEmpty_iff, List.all_eq_true, List.contains_iff_mem] at h
      obtain ⟨⟨⟨⟨hnd, hdecls⟩, hex⟩, hsg⟩, hhooks⟩ := h
      obtain ⟨vs, h1, h2, h3, h4⟩ := declared_total (path := path) hw ih (withFiles files f.decls)
        fun nd hm => (hdecls nd hm).2
      obtain ⟨m, b1, b2, b3, b4⟩ := built_total (E := E) (G := G) (now := d.now path) (c := c) (kw := vs)
        (hw.draws.now path) (fun _ => hw.version) (by rw [h2]; exact hnd)
        (by
          rw [h2]
          intro k hk
          obtain ⟨nd, hnd', rfl⟩ := List.mem_map.mp hk
          exact (hdecls nd hnd').1) h3
      have hall : f.hooks.all (fun nh => okHook (okCall n) c nh.1 kw nh.2) = true :=
        List.all_eq_true.mpr hhooks
      have hvs : vs.map Prod.fst = (withFiles files f.decls).map Prod.fst := h2
      dsimp only
      rw [h1]
      dsimp only
      rw [hex, List.append_nil, b1]
      dsimp only
      rw [signHook_none hsg]
      dsimp only
      have held : ∀ nm c', (nm, sub c') ∈ withFiles files f.decls → nm ∈ c.payload → kw = [] → c ≠ .Hello →
          ∃ x : Msg, getAttr m.attrs nm = defaulted c nm x.val ∧ makeAt E G keccak d n (path ++ [nm]) c' none [] = .ok x ∧
            Good E c' [] x := by
        intro nm c' hm hp hk _
        subst hk
        obtain ⟨x, i1, i2, i3⟩ := h4 nm c' [] none hm rfl
        exact ⟨x, (b4 nm hp x.val).1 i1, i2, i3⟩
      by_cases hv : c = .VerdictReportComputedTask
      · subst hv
        injection hf with hf
        subst hf
        have hk : kw = [] := by
          have := hhooks _ List.mem_cons_self
          simpa [okHook] using this
        subst hk
        have same : ∀ ds, p!"files" ∉ ds.map Prod.fst → withFiles files ds = ds := by
          intro ds hds
          cases files with
          | none => rfl
          | some each =>
            unfold withFiles
            dsimp only
            conv => rhs; rw [← List.map_id ds]
            refine List.map_congr_left fun nd hnd => ?_
            rw [if_neg]
            · rfl
            · rintro e
              exact hds (e ▸ List.mem_map.mpr ⟨nd, hnd, rfl⟩)
        rw [same _ (by simp only [List.map_cons, List.map_nil]; decide)] at held
        obtain ⟨force, f1, f2, f3⟩ := held p!"force_report_computed_task" .ForceReportComputedTask
          List.mem_cons_self (by decide) rfl (by decide)
        obtain ⟨ack, a1, a2, a3⟩ := held p!"ack_report_computed_task" .AckReportComputedTask
          (List.mem_cons_of_mem _ List.mem_cons_self) (by decide) rfl (by decide)
        obtain ⟨x, x1, x2, x3⟩ := f3.2.1 rfl rfl
        have hv := Props.verdict_same_report E G (d.now path) m force x ack.cls ack.ty ack.ts ack.enc ack.sig ack.attrs
          f1 x1 a1 x3 (by rw [x2]; decide)
        have hfine : Fine E .VerdictReportComputedTask ⟨m.cls, m.ty, m.ts, m.enc, m.sig,
            setName p!"ack_report_computed_task" (.msg ack.cls ack.ty ack.ts ack.enc ack.sig
              (setName p!"report_computed_task" (getAttr force.attrs p!"report_computed_task") ack.attrs))
              m.attrs⟩ := by
          refine b2.set (n := p!"ack_report_computed_task") (by decide) (v := .msg ack.cls ack.ty ack.ts ack.enc ack.sig
            (setName p!"report_computed_task" (getAttr force.attrs p!"report_computed_task") ack.attrs)) ?_
          exact (a3.1.set (n := p!"report_computed_task") (by decide) (attr_writable f3.1.writable)).val
        refine ⟨_, ?_, hfine, (fun e => nomatch e), fun _ _ => ?_⟩
        rotate_left
        · refine verdict_valid (f := force) (x := x) (a := ⟨ack.cls, ack.ty, ack.ts, ack.enc, ack.sig,
            setName p!"report_computed_task" (getAttr force.attrs p!"report_computed_task") ack.attrs⟩) ?_ x1 ?_ ?_ x2 x3
          · rw [getAttr_setName, if_neg (by decide), f1]; rfl
          · rw [getAttr_setName, if_pos rfl]; rfl
          · rw [getAttr_setName, if_pos rfl, x1]
        unfold runHooks
        unfold Hook.run
        dsimp only
        rw [show subArgs p!"arct_report_computed_task" [] = [] from rfl, hv]
        rfl
      · obtain ⟨m', g1, g2⟩ := hooks_total (G := G) (d := d) (path := path) ih hv f.hooks m hall b2
        refine ⟨m', g1, g2, ?_, fun e => absurd e hv⟩
        intro hc hk
        subst hc hk
        injection hf with hf
        subst hf
        have e : m' = m := by
          injection g1 with g1
          exact g1.symm
        subst e
        have hmem : (p!"report_computed_task", sub .ReportComputedTask) ∈ withFiles files
            [(p!"result_hash", .text []), (p!"report_computed_task", sub .ReportComputedTask)] := by
          cases files with
          | none => exact List.mem_cons_of_mem _ List.mem_cons_self
          | some each => exact List.mem_cons_of_mem _ List.mem_cons_self
        obtain ⟨x, x1, x2, x3⟩ := held _ _ hmem (by decide) rfl (by decide)
        refine ⟨x, x1, x3.1.cls, Props.made_at (kw := []) hw.draws.member List.nodup_nil (args_nil E _) x2 ?_⟩
        refine ⟨fun e => ?_, fun e => ?_⟩
        · rw [x3.1.cls] at e; cases e
        · rw [x3.1.cls] at e; cases e

end Verif
