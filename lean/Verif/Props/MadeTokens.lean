import Verif.Spec.Tokens
import Verif.Lemmas.Made
import Verif.Lemmas.ToyMake
import Verif.Lemmas.FDict
import Verif.Lemmas.Ownership
import Verif.Lemmas.ContRoundTrip
import Verif.Props.MessageFactories
/-!
# C94: tokens and nodes in made messages
-/

set_option linter.unusedSimpArgs false

namespace Verif.Props

open Verif Spec

/-! ### Files -/

private theorem given_some {kw : Attrs} {n : PStr} {r : Res Val} {v w : Val} (hv : lookupName n kw = some v)
    (h : given kw n r = .ok w) : w = v := by
  unfold given at h
  rw [hv] at h
  injection h with h
  exact h.symm

private theorem given_none {kw : Attrs} {n : PStr} {r : Res Val} {w : Val} (hv : lookupName n kw = none)
    (h : given kw n r = .ok w) : r = .ok w := by
  unfold given at h
  rw [hv] at h
  exact h

/-- The arguments of a file are in its description. -/
private theorem file_says {E : Env} {d : Draws} {path : List PStr} {kw : Attrs} {f : Val} {n : PStr} {v : Val}
    (hk : (kw.map Prod.fst).Nodup) (h : fileFactory E d path kw = .ok f)
    (hn : n ∈ [p!"path", p!"checksum", p!"size", p!"category"]) (hv : lookupName n kw = some v) :
    FileSays f n v := by
  unfold fileFactory at h
  simp only [bind, Except.bind] at h
  split at h
  · cases h
  rename_i x0 h0
  split at h
  · cases h
  rename_i x1 h1
  split at h
  · cases h
  rename_i x2 h2
  unfold mkFDict fdArg Val.asDict at h
  simp only [fdConv] at h
  obtain ⟨items, rfl, _⟩ := fdBuild_ok h
  have hnd : (([(p!"path", x0), (p!"checksum", x1), (p!"size", x2)] ++
      extraArgs [p!"path", p!"checksum", p!"size"] kw).map Prod.fst).Nodup :=
    given_nodup (fun x hx => hx) (by simp) hk
  refine ⟨items, rfl, ?_⟩
  rw [fdBuild_lookup (by
    rw [List.map_map]
    have := List.Pairwise.map (R := (· ≠ ·)) (S := (· ≠ ·)) Val.str (fun a b hab e => hab (by injection e)) hnd
    rw [List.map_map] at this
    exact this) h, dictGet_textKeys, lookupName_append]
  simp only [List.mem_cons, List.not_mem_nil, or_false] at hn
  rcases hn with rfl | rfl | rfl | rfl
  · rw [given_some hv h0]; rfl
  · rw [given_some hv h1]; rfl
  · rw [given_some hv h2]; rfl
  · rw [lookup_extra (by decide), hv]; rfl

/-- Every declared file is made with the arguments for it. -/
private theorem files_each {E : Env} {d : Draws} {path : List PStr} {kw : Attrs} :
    ∀ {each : List Attrs} {l : List Val} {s : Nat}, filesFactory E d path kw s each = .ok l →
      ∀ i args, each[i]? = some args → ∃ f, l[i]? = some f ∧
        given kw (Nat.toDigits 10 (s + i)) (fileFactory E d (path ++ [Nat.toDigits 10 (s + i)])
          (mergeArgs args (subArgs (Nat.toDigits 10 (s + i)) kw))) = .ok f
  | [], _, _, _, i, _, hi => by simp at hi
  | a :: rest, l, s, h, i, args, hi => by
    unfold filesFactory at h
    dsimp only at h
    split at h
    · cases h
    rename_i v hv
    split at h
    · cases h
    rename_i vs hvs
    injection h with h
    subst h
    cases i with
    | zero =>
      simp only [List.getElem?_cons_zero, Option.some.injEq] at hi
      subst hi
      exact ⟨v, rfl, hv⟩
    | succ i =>
      obtain ⟨f, h1, h2⟩ := files_each hvs i args (by simpa using hi)
      rw [show s + (i + 1) = s + 1 + i from by omega]
      exact ⟨f, by simpa using h1, h2⟩

private theorem files_length {E : Env} {d : Draws} {path : List PStr} {kw : Attrs} :
    ∀ {each : List Attrs} {l : List Val} {s : Nat}, filesFactory E d path kw s each = .ok l →
      l.length = each.length
  | [], _, _, h => by
    unfold filesFactory at h
    injection h with h
    subst h
    rfl
  | a :: rest, l, s, h => by
    unfold filesFactory at h
    dsimp only at h
    split at h
    · cases h
    split at h
    · cases h
    rename_i vs hvs
    injection h with h
    subst h
    simp [files_length hvs]

/-! ### Tokens -/

/-- The parts of a made token. -/
private theorem token_parts {E : Env} {G : Getter} {keccak : Bytes → Bytes} {d : Draws} {k : Nat}
    {path : List PStr} {files : Option (List Attrs)} {kw : Attrs} {x : Msg} (hk : (kw.map Prod.fst).Nodup)
    (h : makeAt E G keccak d k path .FileTransferToken files kw = .ok x) :
    x.cls = .FileTransferToken ∧
    ((getAttr kw p!"download").truthy = true → getAttr x.attrs p!"operation" = .enum .ftOperation p!"download") ∧
    ((getAttr kw p!"download").truthy = false → (getAttr kw p!"upload").truthy = true →
      getAttr x.attrs p!"operation" = .enum .ftOperation p!"upload") ∧
    (lookupName p!"files" kw = none → ∃ l, getAttr x.attrs p!"files" = .list l ∧
      filesFactory E d (path ++ [p!"files"]) (subArgs p!"files" kw) 0 (files.getD [[]]) = .ok l) := by
  cases k with
  | zero => cases h
  | succ k =>
    obtain ⟨f, fields, m1, hf, T, hfields, hrun, e1, _, _, hget, _⟩ := made_parts (by decide) (by decide) hk h
    obtain ⟨c1, _, _, _, _, c6⟩ := hooks_keep hrun
    injection hf with hf
    refine ⟨c1.trans e1, ?_, ?_, fun hnone => ?_⟩
    · intro hd
      rw [← hf] at hrun
      simp only [runHooks, Hook.run, hd, if_true] at hrun
      split at hrun
      · cases hrun
      injection hrun with hrun
      rw [← hrun, set_same]
    · intro hd hu
      rw [← hf] at hrun
      simp only [runHooks, Hook.run, hd, hu, if_true, Bool.false_eq_true, if_false] at hrun
      injection hrun with hrun
      rw [← hrun, set_same]
    · have hkeep : getAttr x.attrs p!"files" = getAttr m1.attrs p!"files" := by
        refine c6 _ fun nh hnh => ?_
        rw [← hf] at hnh
        simp only [List.mem_cons, List.not_mem_nil, or_false] at hnh
        rcases hnh with rfl | rfl <;> simp [Hook.target]
      have hm : (p!"files", Decl.files (files.getD [[]])) ∈ withFiles files f.decls := by
        rw [← hf]
        cases files with
        | none => simp [withFiles]
        | some each => simp [withFiles]
      obtain ⟨w, hw1, hw2⟩ := declared_get hfields (by rw [withFiles_names]; exact T.once) hm
      have hw2 := given_none hnone hw2
      unfold Decl.value at hw2
      dsimp only at hw2
      cases hl : filesFactory E d (path ++ [p!"files"]) (subArgs p!"files" kw) 0 (files.getD [[]]) with
      | error e => rw [hl] at hw2; cases hw2
      | ok l =>
        rw [hl] at hw2
        simp only [Except.map, Except.ok.injEq] at hw2
        refine ⟨l, ?_, rfl⟩
        rw [hkeep, hget _ (by decide)]
        have : getAttr (fields ++ extraArgs f.roots kw) p!"files" = .list l := by
          refine getAttr_found ?_
          rw [lookupName_append, hw1, hw2]
        rw [this]
        simp [defaulted]

/-- A message declared by a factory, if it is not given. -/
private theorem declared_message {E : Env} {G : Getter} {keccak : Bytes → Bytes} {d : Draws} {k : Nat}
    {path : List PStr} {c c' : Cls} {kw args : Attrs} {files other : Option (List Attrs)} {m : Msg} {f : MsgFactory}
    {n : PStr} (h1 : c ≠ .TaskToCompute) (h2 : c ≠ .WantToComputeTask) (hf : c.factory = some f)
    (hm : (n, Decl.message c' args other) ∈ f.decls) (hh : f.hooks = []) (hn : n ≠ p!"files")
    (hd : ∀ v, defaulted c n v = v)
    (hk : (kw.map Prod.fst).Nodup) (hv : lookupName n kw = none)
    (h : makeAt E G keccak d (k + 1) path c files kw = .ok m) :
    ∃ x, makeAt E G keccak d k (path ++ [n]) c' other (mergeArgs args (subArgs n kw)) = .ok x ∧
      getAttr m.attrs n = x.val := by
  obtain ⟨f', fields, m1, hf', T, hfields, hrun, e1, _, _, hget, _⟩ := made_parts h1 h2 hk h
  rw [hf] at hf'
  injection hf' with hf'
  subst hf'
  rw [hh] at hrun
  simp only [runHooks, Except.ok.injEq] at hrun
  subst hrun
  obtain ⟨w, hw1, hw2⟩ := declared_get hfields (by rw [withFiles_names]; exact T.once) (withFiles_mem hn hm)
  have hw2 := given_none hv hw2
  unfold Decl.value at hw2
  dsimp only at hw2
  cases hx : makeAt E G keccak d k (path ++ [n]) c' other (mergeArgs args (subArgs n kw)) with
  | error e => rw [hx] at hw2; cases hw2
  | ok x =>
    rw [hx] at hw2
    simp only [Except.map, Except.ok.injEq] at hw2
    refine ⟨x, rfl, ?_⟩
    rw [hget _ (T.declared _ _ hm), hd]
    refine getAttr_found ?_
    rw [lookupName_append, hw1, hw2]

/-- The token of a message that carries one. -/
private theorem token_made {E : Env} {G : Getter} {keccak : Bytes → Bytes} {d : Draws} {c : Cls} {p : List PStr}
    {count : Nat} {kw : Attrs} {m : Msg} (ht : tokenAt c = some (p, count)) (hk : (kw.map Prod.fst).Nodup)
    (hup : p ≠ [] → lookupName p!"file_transfer_token" kw = none)
    (h : make E G keccak d c kw = .ok m) :
    ∃ k path each kw' preset x, makeAt E G keccak d k path .FileTransferToken each kw' = .ok x ∧ Follow p m x ∧
      (kw'.map Prod.fst).Nodup ∧
      (∀ a, lookupName a kw' = (lookupName (joined p a) kw).or (lookupName a preset)) ∧
      ((p = [] ∧ preset = [] ∧ each = none ∧ count = 1) ∨
        (c = .ForceGetTaskResultUpload ∧ preset = [(p!"upload", .bool true)] ∧ each = none ∧ count = 1) ∨
        (c = .ForceGetTaskResultDownload ∧ preset = [(p!"download", .bool true)] ∧ each = none ∧ count = 1) ∨
        (c = .AckSubtaskResultsVerify ∧ preset = [] ∧ each = some [[(p!"category", .enum .ftCategory p!"resources")],
            [(p!"category", .enum .ftCategory p!"results")]] ∧ count = 2)) := by
  have hmerge : ∀ (a kw : Attrs) (n : PStr), lookupName n (mergeArgs a (subArgs p!"file_transfer_token" kw)) =
      (lookupName (joined [p!"file_transfer_token"] n) kw).or (lookupName n a) := by
    intro a kw n
    rw [lookup_merge, lookup_sub]
    unfold joined joined
    cases lookupName (p!"file_transfer_token" ++ p!"__" ++ n) kw <;> rfl
  unfold make at h
  rw [show maxDepth = maxDepth - 1 + 1 from rfl] at h
  unfold tokenAt at ht
  split at ht
  · injection ht with ht
    injection ht with ht1 ht2
    subst ht1 ht2
    exact ⟨_, _, _, kw, [], m, h, rfl, hk, fun a => by simp [joined, lookupName], Or.inl ⟨rfl, rfl, rfl, rfl⟩⟩
  · injection ht with ht
    injection ht with ht1 ht2
    subst ht1 ht2
    obtain ⟨x, hx, hg⟩ := declared_message (n := p!"file_transfer_token") (by decide) (by decide) rfl
      (List.mem_cons_of_mem _ (List.mem_singleton.mpr rfl)) rfl
      (by decide) (fun v => by simp [defaulted]) hk (hup (by simp)) h
    exact ⟨_, _, _, _, _, x, hx, ⟨x, hg, rfl⟩, merge_nodup (by simp) (sub_nodup hk), hmerge _ kw,
      Or.inr (Or.inl ⟨rfl, rfl, rfl, rfl⟩)⟩
  · injection ht with ht
    injection ht with ht1 ht2
    subst ht1 ht2
    obtain ⟨x, hx, hg⟩ := declared_message (n := p!"file_transfer_token") (by decide) (by decide) rfl
      (List.mem_cons_of_mem _ (List.mem_singleton.mpr rfl)) rfl
      (by decide) (fun v => by simp [defaulted]) hk (hup (by simp)) h
    exact ⟨_, _, _, _, _, x, hx, ⟨x, hg, rfl⟩, merge_nodup (by simp) (sub_nodup hk), hmerge _ kw,
      Or.inr (Or.inr (Or.inl ⟨rfl, rfl, rfl, rfl⟩))⟩
  · injection ht with ht
    injection ht with ht1 ht2
    subst ht1 ht2
    obtain ⟨x, hx, hg⟩ := declared_message (n := p!"file_transfer_token") (by decide) (by decide) rfl
      (List.mem_cons_of_mem _ (List.mem_singleton.mpr rfl)) rfl
      (by decide) (fun v => by simp [defaulted]) hk (hup (by simp)) h
    exact ⟨_, _, _, _, _, x, hx, ⟨x, hg, rfl⟩, merge_nodup (by simp) (sub_nodup hk), hmerge _ kw,
      Or.inr (Or.inr (Or.inr ⟨rfl, rfl, rfl, rfl⟩))⟩
  · cases ht

/-- **C94**: the token in an order to upload a result is for uploading and the one to download it for
downloading, whatever other arguments are given, even another `operation`. -/
theorem token_fits (E : Env) (G : Getter) (keccak : Bytes → Bytes) (d : Draws) (c : Cls) (op : PStr) (kw : Attrs)
    (m : Msg) (hc : (c, op) ∈ [(Cls.ForceGetTaskResultUpload, p!"upload"), (.ForceGetTaskResultDownload, p!"download")])
    (hk : (kw.map Prod.fst).Nodup)
    (ha : ∀ a ∈ [p!"file_transfer_token", p!"file_transfer_token__upload", p!"file_transfer_token__download"],
      a ∉ kw.map Prod.fst)
    (h : make E G keccak d c kw = .ok m) :
    ∃ x, Follow [p!"file_transfer_token"] m x ∧ x.cls = .FileTransferToken ∧
      getAttr x.attrs p!"operation" = .enum .ftOperation op := by
  have h0 := (lookupName_none _ _).mpr (ha p!"file_transfer_token" (by simp))
  have hu : lookupName (joined [p!"file_transfer_token"] p!"upload") kw = none :=
    (lookupName_none _ _).mpr (ha p!"file_transfer_token__upload" (by simp))
  have hd : lookupName (joined [p!"file_transfer_token"] p!"download") kw = none :=
    (lookupName_none _ _).mpr (ha p!"file_transfer_token__download" (by simp))
  have ht : tokenAt c = some ([p!"file_transfer_token"], 1) := by
    simp only [List.mem_cons, List.not_mem_nil, or_false, Prod.mk.injEq] at hc
    rcases hc with ⟨rfl, rfl⟩ | ⟨rfl, rfl⟩ <;> rfl
  obtain ⟨k, path, each, kw', preset, x, hx, hf, hk', hl, cases⟩ := token_made ht hk (fun _ => h0) h
  obtain ⟨g1, g2, g3, _⟩ := token_parts hk' hx
  refine ⟨x, hf, g1, ?_⟩
  have lu := hl p!"upload"
  have ld := hl p!"download"
  rw [hu] at lu
  rw [hd] at ld
  simp only [List.mem_cons, List.not_mem_nil, or_false, Prod.mk.injEq] at hc
  rcases cases with ⟨e, _⟩ | ⟨rfl, rfl, _⟩ | ⟨rfl, rfl, _⟩ | ⟨rfl, _⟩
  · cases e
  · rcases hc with ⟨_, rfl⟩ | ⟨e, _⟩
    · refine g3 ?_ ?_
      · unfold getAttr; rw [ld]; rfl
      · unfold getAttr; rw [lu]; rfl
    · cases e
  · rcases hc with ⟨e, _⟩ | ⟨_, rfl⟩
    · cases e
    · refine g2 ?_
      unfold getAttr; rw [ld]; rfl
  · rcases hc with ⟨e, _⟩ | ⟨e, _⟩ <;> cases e

/-- The description of a file in the token, if neither the list of files nor the file is given. -/
private theorem file_at {E : Env} {G : Getter} {keccak : Bytes → Bytes} {d : Draws} {c : Cls} {p : List PStr}
    {count i : Nat} {kw : Attrs} {m : Msg} (ht : tokenAt c = some (p, count)) (hi : i < count)
    (hk : (kw.map Prod.fst).Nodup) (hup : p ≠ [] → lookupName p!"file_transfer_token" kw = none)
    (hfiles : lookupName (joined p p!"files") kw = none)
    (hfile : lookupName (joined p (p!"files__" ++ Nat.toDigits 10 i)) kw = none)
    (h : make E G keccak d c kw = .ok m) :
    ∃ x l f, Follow p m x ∧ x.cls = .FileTransferToken ∧ getAttr x.attrs p!"files" = .list l ∧ l.length = count ∧
      l[i]? = some f ∧
      (∀ n v, n ∈ [p!"path", p!"checksum", p!"size", p!"category"] →
        lookupName (joined p (p!"files__" ++ Nat.toDigits 10 i ++ p!"__" ++ n)) kw = some v → FileSays f n v) ∧
      (c = .AckSubtaskResultsVerify →
        lookupName (joined p (p!"files__" ++ Nat.toDigits 10 i ++ p!"__category")) kw = none →
        FileSays f p!"category" (.enum .ftCategory (if i = 0 then p!"resources" else p!"results"))) := by
  obtain ⟨k, path, each, kw', preset, x, hx, hf, hk', hl, cases⟩ := token_made ht hk hup h
  obtain ⟨g1, _, _, g4⟩ := token_parts hk' hx
  have hpre : ∀ a, a ≠ p!"upload" → a ≠ p!"download" → lookupName a preset = none := by
    intro a ha hb
    rw [lookupName_none]
    rcases cases with ⟨_, rfl, _⟩ | ⟨_, rfl, _⟩ | ⟨_, rfl, _⟩ | ⟨_, rfl, _⟩ <;> simp [ha, hb]
  have hll : ∀ a, a ≠ p!"upload" → a ≠ p!"download" → lookupName a kw' = lookupName (joined p a) kw := by
    intro a ha hb
    rw [hl, hpre a ha hb]
    cases lookupName (joined p a) kw <;> rfl
  obtain ⟨l, hg, hfac⟩ := g4 (by rw [hll _ (by decide) (by decide)]; exact hfiles)
  have hlen : (each.getD [[]]).length = count := by
    rcases cases with ⟨_, _, rfl, rfl⟩ | ⟨_, _, rfl, rfl⟩ | ⟨_, _, rfl, rfl⟩ | ⟨_, _, rfl, rfl⟩ <;> rfl
  obtain ⟨args, hargs⟩ : ∃ args, (each.getD [[]])[i]? = some args :=
    ⟨_, List.getElem?_eq_getElem (by rw [hlen]; exact hi)⟩
  obtain ⟨f, h1, h2⟩ := files_each hfac i args hargs
  rw [Nat.zero_add] at h2
  have hsub : ∀ b, lookupName b (subArgs p!"files" kw') = lookupName (joined p (p!"files__" ++ b)) kw := by
    intro b
    rw [lookup_sub, hll]
    · rfl
    · simp
    · simp
  have h2 := given_none (by rw [hsub]; exact hfile) h2
  have hnd : ((mergeArgs args (subArgs (Nat.toDigits 10 i) (subArgs p!"files" kw'))).map Prod.fst).Nodup := by
    refine merge_nodup ?_ (sub_nodup (sub_nodup hk'))
    have : args ∈ each.getD [[]] := List.mem_of_getElem? hargs
    rcases cases with ⟨_, _, rfl, _⟩ | ⟨_, _, rfl, _⟩ | ⟨_, _, rfl, _⟩ | ⟨_, _, rfl, _⟩
    · simp only [Option.getD_none, List.mem_singleton] at this; rw [this]; simp
    · simp only [Option.getD_none, List.mem_singleton] at this; rw [this]; simp
    · simp only [Option.getD_none, List.mem_singleton] at this; rw [this]; simp
    · simp only [Option.getD_some, List.mem_cons, List.not_mem_nil, or_false] at this
      rcases this with rfl | rfl <;> simp
  refine ⟨x, l, f, hf, g1, hg, by rw [files_length hfac, hlen], h1, fun n v hn hv => ?_, fun hc hv => ?_⟩
  · refine file_says hnd h2 hn ?_
    rw [lookup_merge, lookup_sub, hsub]
    rw [show p!"files__" ++ (Nat.toDigits 10 i ++ p!"__" ++ n) = p!"files__" ++ Nat.toDigits 10 i ++ p!"__" ++ n by
      simp only [List.append_assoc], hv]
  · refine file_says hnd h2 (by simp) ?_
    rw [lookup_merge, lookup_sub, hsub]
    rw [show p!"files__" ++ (Nat.toDigits 10 i ++ p!"__" ++ p!"category") = p!"files__" ++ Nat.toDigits 10 i ++
      p!"__category" by simp only [List.append_assoc]; rfl, hv]
    rcases cases with ⟨e, _⟩ | ⟨e, _⟩ | ⟨e, _⟩ | ⟨_, _, rfl, rfl⟩
    · subst hc; subst e; cases ht
    · subst hc; cases e
    · subst hc; cases e
    · match i, hi, hargs with
      | 0, _, hargs => cases hargs; rfl
      | 1, _, hargs => cases hargs; rfl

/-- **C94**: the token in an acknowledgement of a verification is for two files, of resources and of
results, whatever other arguments are given. -/
theorem evidence_files (E : Env) (G : Getter) (keccak : Bytes → Bytes) (d : Draws) (kw : Attrs) (m : Msg)
    (hk : (kw.map Prod.fst).Nodup)
    (ha : ∀ a ∈ [p!"file_transfer_token", p!"file_transfer_token__files", p!"file_transfer_token__files__0",
      p!"file_transfer_token__files__0__category", p!"file_transfer_token__files__1",
      p!"file_transfer_token__files__1__category"], a ∉ kw.map Prod.fst)
    (h : make E G keccak d .AckSubtaskResultsVerify kw = .ok m) :
    ∃ x f0 f1, Follow [p!"file_transfer_token"] m x ∧ x.cls = .FileTransferToken ∧
      getAttr x.attrs p!"files" = .list [f0, f1] ∧ FileSays f0 p!"category" (.enum .ftCategory p!"resources") ∧
      FileSays f1 p!"category" (.enum .ftCategory p!"results") := by
  have no : ∀ a ∈ [p!"file_transfer_token", p!"file_transfer_token__files", p!"file_transfer_token__files__0",
      p!"file_transfer_token__files__0__category", p!"file_transfer_token__files__1",
      p!"file_transfer_token__files__1__category"], lookupName a kw = none :=
    fun a hm => (lookupName_none _ _).mpr (ha a hm)
  obtain ⟨x, l, f0, a1, a2, a3, a4, a5, _, a7⟩ := file_at (i := 0) (kw := kw) (c := .AckSubtaskResultsVerify) rfl (by decide)
    hk (fun _ => no _ (by simp)) (no p!"file_transfer_token__files" (by simp))
    (no p!"file_transfer_token__files__0" (by simp)) h
  obtain ⟨x', l', f1, b1, b2, b3, b4, b5, _, b7⟩ := file_at (i := 1) (kw := kw) (c := .AckSubtaskResultsVerify) rfl (by decide)
    hk (fun _ => no _ (by simp)) (no p!"file_transfer_token__files" (by simp))
    (no p!"file_transfer_token__files__1" (by simp)) h
  have a7 := a7 rfl (no p!"file_transfer_token__files__0__category" (by simp))
  have b7 := b7 rfl (no p!"file_transfer_token__files__1__category" (by simp))
  obtain ⟨y, hy, rfl⟩ := a1
  obtain ⟨y', hy', rfl⟩ := b1
  have : x' = x := msg_val_inj (hy'.symm.trans hy)
  subst this
  rw [a3] at b3
  injection b3 with b3
  subst b3
  refine ⟨x', f0, f1, ⟨x', hy, rfl⟩, a2, ?_, a7, b7⟩
  rw [a3]
  match l, a4, a5, b5 with
  | [u, v], _, a5, b5 => cases a5; cases b5; rfl

/-- **C94**: an argument for a file of a token is in the description of that file. -/
theorem file_argument (E : Env) (G : Getter) (keccak : Bytes → Bytes) (d : Draws) (c : Cls) (p : List PStr)
    (count i : Nat) (n : PStr) (v : Val) (kw : Attrs) (m : Msg) (ht : tokenAt c = some (p, count)) (hi : i < count)
    (hn : n ∈ [p!"path", p!"checksum", p!"size", p!"category"]) (hk : (kw.map Prod.fst).Nodup)
    (hv : lookupName (joined p (p!"files__" ++ Nat.toDigits 10 i ++ p!"__" ++ n)) kw = some v)
    (ha : ∀ a ∈ joined p p!"files" :: joined p (p!"files__" ++ Nat.toDigits 10 i) :: p, a ∉ kw.map Prod.fst)
    (h : make E G keccak d c kw = .ok m) :
    ∃ x l f, Follow p m x ∧ x.cls = .FileTransferToken ∧ getAttr x.attrs p!"files" = .list l ∧ l.length = count ∧
      l[i]? = some f ∧ FileSays f n v := by
  have no : ∀ a ∈ joined p p!"files" :: joined p (p!"files__" ++ Nat.toDigits 10 i) :: p, lookupName a kw = none :=
    fun a hm => (lookupName_none _ _).mpr (ha a hm)
  obtain ⟨x, l, f, a1, a2, a3, a4, a5, a6, _⟩ := file_at ht hi hk (fun hp => by
    have : p = [p!"file_transfer_token"] := by
      unfold tokenAt at ht
      split at ht <;> first | cases ht | skip
      all_goals first | exact absurd rfl hp | rfl
    exact no _ (by rw [this]; simp)) (no _ (by simp)) (no _ (by simp)) h
  exact ⟨x, l, f, a1, a2, a3, a4, a5, a6 n v hn hv⟩

/-! ### Nodes -/

private theorem node_says {E : Env} {name : PStr} {kw : Attrs} {w : Val} {n : PStr} {v : Val}
    (h : nodeFactory E name kw = .ok w) (hn : n ∈ nodeParts) (hv : lookupName n kw = some v) :
    ∃ fs, w = .cont .node fs ∧ getAttr fs n = v := by
  unfold nodeFactory at h
  simp only [bind, Except.bind] at h
  split at h
  · cases h
  rename_i x1 hx1
  split at h
  · cases h
  rename_i x2 hx2
  rw [mkCont_leaf (by rfl)] at h
  obtain ⟨kw', fs, hd, _, rfl, hnames, _, hf⟩ := contCall_ok h
  have hkw : kw' = [(p!"key", x1), (p!"node_name", x2)] ++ extraArgs [p!"key", p!"node_name"] kw := by
    have h1 := textKeys_map ([(p!"key", x1), (p!"node_name", x2)] ++ extraArgs [p!"key", p!"node_name"] kw)
    have h2 := textKeys_map kw'
    simp only [Val.asDict, Option.some.injEq] at hd
    rw [hd, h2] at h1
    exact Option.some.inj h1
  have hl : lookupName n kw' = some v := by
    rw [hkw, lookupName_append]
    by_cases e1 : n = p!"key"
    · subst e1; rw [given_some hv hx1]; rfl
    by_cases e2 : n = p!"node_name"
    · subst e2; rw [given_some hv hx2]; rfl
    rw [show lookupName n [(p!"key", x1), (p!"node_name", x2)] = none from
      (lookupName_none _ _).mpr (by simp [e1, e2]), lookup_extra ?_, hv]
    intro x hx
    have key : ∀ n ∈ nodeParts, (p!"key" ++ p!"__").isPrefixOf n = false ∧
      (p!"node_name" ++ p!"__").isPrefixOf n = false := by decide
    simp only [List.mem_cons, List.not_mem_nil, or_false] at hx
    rcases hx with rfl | rfl
    · exact ⟨e1, (key n hn).1⟩
    · exact ⟨e2, (key n hn).2⟩
  have hs : ∀ n ∈ nodeParts, n ∈ ContId.node.slots.map Prod.fst := by decide
  obtain ⟨⟨n', vs⟩, hm, rfl⟩ := List.mem_map.mp (hs n hn)
  obtain ⟨x, hx, hfield⟩ := hf n' vs hm
  refine ⟨fs, rfl, ?_⟩
  rw [contField_present hl] at hfield
  have hxv : x = v := by
    unfold contDeser at hfield
    split at hfield
    · injection hfield with e; exact e.symm
    split at hfield
    · cases hfield
    · have : leafHook E .node n' v = .ok v := rfl
      rw [this] at hfield
      injection hfield with e; exact e.symm
  subst hxv
  exact getAttr_found (lookupName_of_mem (by rw [hnames]; exact slots_nodup .node) hx)

/-- **C94**: an argument for a node is in that node. -/
theorem node_argument (E : Env) (G : Getter) (keccak : Bytes → Bytes) (d : Draws) (c : Cls) (f n : PStr) (v : Val)
    (kw : Attrs) (m : Msg) (hc : (c, f) ∈ nodesMade) (hn : n ∈ nodeParts)
    (hk : (kw.map Prod.fst).Nodup) (hv : lookupName (f ++ p!"__" ++ n) kw = some v) (ha : f ∉ kw.map Prod.fst)
    (h : make E G keccak d c kw = .ok m) :
    ∃ fs, getAttr m.attrs f = .cont .node fs ∧ getAttr fs n = v := by
  have h12 : c ≠ .TaskToCompute ∧ c ≠ .WantToComputeTask := by
    have : ∀ x ∈ nodesMade, x.1 ≠ .TaskToCompute ∧ x.1 ≠ .WantToComputeTask := by decide
    exact this _ hc
  unfold make at h
  rw [show maxDepth = maxDepth - 1 + 1 from rfl] at h
  obtain ⟨g, fields, m1, hf, T, hfields, hrun, e1, _, _, hget, _⟩ := made_parts h12.1 h12.2 hk h
  have hm : (f, Decl.node) ∈ g.decls ∧ g.hooks = [] ∧ f ≠ p!"files" ∧ f ∈ c.payload ∧ ∀ v, defaulted c f v = v := by
    simp only [nodesMade, List.mem_cons, List.not_mem_nil, or_false, Prod.mk.injEq] at hc
    rcases hc with ⟨rfl, rfl⟩ | ⟨rfl, rfl⟩ | ⟨rfl, rfl⟩ | ⟨rfl, rfl⟩ | ⟨rfl, rfl⟩ <;>
      (injection hf with hf; subst hf; exact ⟨by simp, rfl, by decide, by decide, fun v => by simp [defaulted]⟩)
  rw [hm.2.1] at hrun
  simp only [runHooks, Except.ok.injEq] at hrun
  subst hrun
  obtain ⟨w, hw1, hw2⟩ := declared_get hfields (by rw [withFiles_names]; exact T.once) (withFiles_mem hm.2.2.1 hm.1)
  have hw2 := given_none ((lookupName_none _ _).mpr ha) hw2
  unfold Decl.value at hw2
  dsimp only at hw2
  obtain ⟨fs, rfl, hs⟩ := node_says hw2 hn (by rw [lookup_sub]; exact hv)
  refine ⟨fs, ?_, hs⟩
  rw [hget _ hm.2.2.2.1, hm.2.2.2.2]
  refine getAttr_found ?_
  rw [lookupName_append, hw1]

private theorem conv_same {E : Env} {pairs : List (Val × Val)}
    (h : ∀ k v, (k, v) ∈ pairs → k ≠ .str p!"node" ∨ v.asDict = none) :
    fdBuild E (peerConv E) .peer pairs = fdBuild E noConv .peer pairs := by
  have one : ∀ items k v, (k ≠ .str p!"node" ∨ v.asDict = none) →
      fdSetV E (peerConv E) .peer items k v = fdSetV E noConv .peer items k v := by
    intro items k v hv
    unfold fdSetV
    cases k with
    | str k =>
      have : peerConv E k v = .ok v := by
        unfold peerConv
        rw [if_neg]
        rintro ⟨rfl, e⟩
        rcases hv with hv | hv
        · exact hv rfl
        · rw [hv] at e; cases e
      simp only [this, noConv]
    | _ => rfl
  have all : ∀ (pairs : List (Val × Val)) items, (∀ k v, (k, v) ∈ pairs → k ≠ .str p!"node" ∨ v.asDict = none) →
      fdSetAll E (peerConv E) .peer items pairs = fdSetAll E noConv .peer items pairs := by
    intro pairs
    induction pairs with
    | nil => intro items _; rfl
    | cons p rest ih =>
      intro items h
      obtain ⟨k, v⟩ := p
      unfold fdSetAll
      rw [one items k v (h k v (by simp))]
      split
      · rfl
      · exact ih _ fun k v hm => h k v (List.mem_cons_of_mem _ hm)
  have defs : ∀ (l : List (PStr × Val)) items, (∀ k v, (k, v) ∈ l → v.asDict = none) →
      fdDefaults E (peerConv E) .peer items l = fdDefaults E noConv .peer items l := by
    intro l
    induction l with
    | nil => intro items _; rfl
    | cons p rest ih =>
      intro items h
      obtain ⟨k, v⟩ := p
      unfold fdDefaults
      rw [one items (.str k) v (Or.inr (h k v (by simp)))]
      split
      · exact ih _ fun k v hm => h k v (List.mem_cons_of_mem _ hm)
      · split
        · rfl
        · exact ih _ fun k v hm => h k v (List.mem_cons_of_mem _ hm)
  unfold fdBuild
  rw [all pairs [] h]
  split
  · rfl
  · rw [defs _ _ fun k v hm => ?_]
    simp only [FDictId.items, List.mem_cons, List.not_mem_nil, or_false, Prod.mk.injEq] at hm
    rcases hm with ⟨_, rfl⟩ | ⟨_, rfl⟩ | ⟨_, rfl⟩ <;> rfl

/-- **C94**: an argument for a peer is in that peer, and an argument for its node in its node. -/
theorem peer_argument (E : Env) (address : PStr) (port : Int) (name : PStr) (kw : Attrs) (w : Val)
    (hk : (kw.map Prod.fst).Nodup) (hnode : p!"node" ∉ kw.map Prod.fst)
    (h : peerFactory E address port name kw = .ok w) :
    ∃ items fs, w = .fdict .peer items ∧ lookupName p!"node" items = some (.cont .node fs) ∧
      (∀ n v, n ∈ [p!"address", p!"port"] → lookupName n kw = some v → lookupName n items = some v) ∧
      ∀ n v, n ∈ nodeParts → lookupName (p!"node" ++ p!"__" ++ n) kw = some v → getAttr fs n = v := by
  unfold peerFactory at h
  simp only [bind, Except.bind] at h
  split at h
  · cases h
  rename_i x1 hx1
  split at h
  · cases h
  rename_i x2 hx2
  split at h
  · cases h
  rename_i x3 hx3
  have hx3 := given_none ((lookupName_none _ _).mpr hnode) hx3
  have hnd : (([(p!"address", x1), (p!"port", x2), (p!"node", x3)] ++
      extraArgs [p!"address", p!"port", p!"node"] kw).map Prod.fst).Nodup :=
    given_nodup (fun x hx => hx) (by simp) hk
  obtain ⟨fs, rfl⟩ : ∃ fs, x3 = .cont .node fs := by
    unfold nodeFactory at hx3
    simp only [bind, Except.bind] at hx3
    split at hx3
    · cases hx3
    split at hx3
    · cases hx3
    rw [mkCont_leaf (by rfl)] at hx3
    obtain ⟨_, fs, _, _, e, _⟩ := contCall_ok hx3
    exact ⟨fs, e⟩
  unfold mkFDict fdArg at h
  simp only [Val.asDict, fdConv] at h
  rw [conv_same] at h
  · obtain ⟨items, rfl, _⟩ := fdBuild_ok h
    have hl : ∀ n, lookupName n items = _ := fdBuild_lookup (by
      rw [List.map_map]
      have := List.Pairwise.map (R := (· ≠ ·)) (S := (· ≠ ·)) Val.str (fun a b hab e => hab (by injection e)) hnd
      rw [List.map_map] at this
      exact this) h
    simp only [dictGet_textKeys, lookupName_append] at hl
    refine ⟨items, fs, rfl, by rw [hl]; rfl, fun n v hn hv => ?_, fun n v hn hv => ?_⟩
    · simp only [List.mem_cons, List.not_mem_nil, or_false] at hn
      rw [hl]
      rcases hn with rfl | rfl
      · rw [given_some hv hx1]; rfl
      · rw [given_some hv hx2]; rfl
    · obtain ⟨fs', e, he⟩ := node_says hx3 hn (by rw [lookup_sub]; exact hv)
      injection e with _ e
      rw [e]
      exact he
  · intro k v hm
    obtain ⟨p, hp, e⟩ := List.mem_map.mp hm
    injection e with e1 e2
    subst e1 e2
    simp only [List.cons_append, List.nil_append, List.mem_cons] at hp
    rcases hp with rfl | rfl | rfl | hp
    · left; simp
    · left; simp
    · right; rfl
    · left
      intro e
      injection e with e
      unfold extraArgs at hp
      have := (List.mem_filter.mp hp).2
      rw [e] at this
      simp at this

/-! ### Fields that are not given -/

theorem declared_value {E : Env} {G : Getter} {keccak : Bytes → Bytes} {d : Draws} {c : Cls} {n : PStr}
    {kw : Attrs} {m : Msg} {f : MsgFactory} {dcl : Decl} (h1 : c ≠ .TaskToCompute) (h2 : c ≠ .WantToComputeTask)
    (hf : c.factory = some f) (hm : (n, dcl) ∈ f.decls) (hn : n ≠ p!"files")
    (hh : ∀ nh ∈ f.hooks, n ≠ nh.2.target nh.1) (hk : (kw.map Prod.fst).Nodup) (ha : n ∉ kw.map Prod.fst)
    (h : make E G keccak d c kw = .ok m) :
    ∃ v, dcl.value E d (makeAt E G keccak d (maxDepth - 1)) [n] (subArgs n kw) = .ok v ∧
      getAttr m.attrs n = defaulted c n v := by
  unfold make at h
  rw [show maxDepth = maxDepth - 1 + 1 from rfl] at h
  obtain ⟨g, fields, m1, hf', T, hfields, hrun, e1, _, _, hget, _⟩ := made_parts h1 h2 hk h
  rw [hf] at hf'
  injection hf' with hf'
  subst hf'
  obtain ⟨w, hw1, hw2⟩ := declared_get hfields (by rw [withFiles_names]; exact T.once) (withFiles_mem hn hm)
  have hw2 := given_none ((lookupName_none _ _).mpr ha) hw2
  refine ⟨w, hw2, ?_⟩
  rw [(hooks_keep hrun).2.2.2.2.2 n hh, hget _ (T.declared _ _ hm)]
  congr 1
  refine getAttr_found ?_
  rw [lookupName_append, hw1]

/-- **C94**: reasons, origins, recipients and deadlines that are not asked for. -/
theorem usual_values (E : Env) (G : Getter) (keccak : Bytes → Bytes) (d : Draws) (c : Cls) (n : PStr) (v : Val)
    (kw : Attrs) (m : Msg) (hc : (c, n, v) ∈ usual) (hk : (kw.map Prod.fst).Nodup) (ha : n ∉ kw.map Prod.fst)
    (h : make E G keccak d c kw = .ok m) : getAttr m.attrs n = v := by
  have key : c ≠ .TaskToCompute ∧ c ≠ .WantToComputeTask ∧ n ≠ p!"files" ∧ defaulted c n v = v ∧
      ∃ f, c.factory = some f ∧ (n, Decl.const v) ∈ f.decls ∧ ∀ nh ∈ f.hooks, n ≠ nh.2.target nh.1 := by
    simp only [usual, List.mem_cons, List.not_mem_nil, or_false, Prod.mk.injEq] at hc
    rcases hc with ⟨rfl, rfl, rfl⟩ | ⟨rfl, rfl, rfl⟩ | ⟨rfl, rfl, rfl⟩ | ⟨rfl, rfl, rfl⟩ | ⟨rfl, rfl, rfl⟩ |
      ⟨rfl, rfl, rfl⟩
    all_goals exact ⟨by decide, by decide, by decide, by decide, _, rfl, by simp, by simp [Hook.target]⟩
  obtain ⟨k1, k2, k3, k4, f, k5, k6, k7⟩ := key
  obtain ⟨w, hw, hg⟩ := declared_value k1 k2 k5 k6 k3 k7 hk ha h
  unfold Decl.value at hw
  injection hw with hw
  rw [hg, ← hw, k4]

/-- **C94**: hashes and accounts that are not given are marked as such. -/
theorem usual_beginnings (E : Env) (G : Getter) (keccak : Bytes → Bytes) (d : Draws) (c : Cls) (n start : PStr)
    (kw : Attrs) (m : Msg) (hc : (c, n, start) ∈ beginnings) (hk : (kw.map Prod.fst).Nodup)
    (ha : n ∉ kw.map Prod.fst) (h : make E G keccak d c kw = .ok m) :
    ∃ rest, getAttr m.attrs n = .str (start ++ rest) := by
  have key : c ≠ .TaskToCompute ∧ c ≠ .WantToComputeTask ∧ n ≠ p!"files" ∧ (∀ x, defaulted c n (.str x) = .str x) ∧
      ∃ f, c.factory = some f ∧ (n, Decl.text start) ∈ f.decls ∧ ∀ nh ∈ f.hooks, n ≠ nh.2.target nh.1 := by
    simp only [beginnings, List.mem_cons, List.not_mem_nil, or_false, Prod.mk.injEq] at hc
    rcases hc with ⟨rfl, rfl, rfl⟩ | ⟨rfl, rfl, rfl⟩
    all_goals exact ⟨by decide, by decide, by decide, fun x => by simp [defaulted], _, rfl, by simp,
      by simp [Hook.target]⟩
  obtain ⟨k1, k2, k3, k4, f, k5, k6, k7⟩ := key
  obtain ⟨w, hw, hg⟩ := declared_value k1 k2 k5 k6 k3 k7 hk ha h
  unfold Decl.value at hw
  injection hw with hw
  rw [hg, ← hw, k4]
  exact ⟨_, rfl⟩

/-! ### Cases -/

private def fileArgs : Attrs :=
  [(p!"file_transfer_token__files__1__size", .int 77), (p!"file_transfer_token__operation", .enum .ftOperation p!"download")]

/-- The hypotheses of `evidence_files` and `file_argument` are met. -/
example : (toyMake .AckSubtaskResultsVerify fileArgs).isOk = true ∧ (fileArgs.map Prod.fst).Nodup ∧
    (∀ a ∈ [p!"file_transfer_token", p!"file_transfer_token__files", p!"file_transfer_token__files__0",
      p!"file_transfer_token__files__0__category", p!"file_transfer_token__files__1",
      p!"file_transfer_token__files__1__category"], a ∉ fileArgs.map Prod.fst) ∧
    lookupName (joined [p!"file_transfer_token"] (p!"files__" ++ Nat.toDigits 10 1 ++ p!"__" ++ p!"size")) fileArgs =
      some (.int 77) := by decide +kernel

private def opArgs : Attrs := [(p!"file_transfer_token__operation", .enum .ftOperation p!"download"),
  (p!"file_transfer_token__files__0__size", .int 77)]

/-- Those of `token_fits` too, with another operation asked for. -/
example : (toyMake .ForceGetTaskResultUpload opArgs).isOk = true ∧ (opArgs.map Prod.fst).Nodup ∧
    (∀ a ∈ [p!"file_transfer_token", p!"file_transfer_token__upload", p!"file_transfer_token__download"],
      a ∉ opArgs.map Prod.fst) := by decide +kernel

/-- A name and an address for a node. -/
example : (toyMake .SetTaskSession [(p!"node_info__node_name", .str p!"Ada"),
    (p!"super_node_info__pub_addr", .str p!"10.0.0.1")]).isOk = true := by decide +kernel

example : (peerFactory toyEnv p!"10.0.0.1" 40102 p!"Ada" [(p!"port", .int 4), (p!"node__node_name", .str p!"Bob")]).isOk =
    true := by decide +kernel

example : ∀ x ∈ usual, (toyMake x.1 []).isOk = true := by decide +kernel

example : ∀ x ∈ beginnings, (toyMake x.1 []).isOk = true := by decide +kernel

/-- Asking for a download with `download` instead turns the token round. -/
example : (match toyMake .ForceGetTaskResultUpload [(p!"file_transfer_token__download", .bool true)] with
    | .ok m => (match getAttr m.attrs p!"file_transfer_token" with
      | .msg _ _ _ _ _ as => decide (getAttr as p!"operation" = .enum .ftOperation p!"download")
      | _ => false)
    | .error _ => false) = true := by decide +kernel

end Verif.Props
