import Verif.Model.MessageFactories
import Verif.Lemmas.Construct
/-!
# Lemmas on factories of messages
-/

set_option linter.unusedSimpArgs false

namespace Verif

open Spec

/-! ### Steps of a factory -/

/-- What the `sign` hook does. -/
theorem signHook_cases {E : Env} {kw : Attrs} {m m' : Msg} (h : signHook E kw m = .ok m') :
    (signArg kw = .ok none ∧ m' = m) ∨
    ∃ priv, signArg kw = .ok (some priv) ∧ m.signMessage E priv = .ok m' := by
  unfold signHook at h
  simp only [bind, Except.bind] at h
  split at h
  · cases h
  rename_i a ha
  cases a with
  | none => left; injection h with h; exact ⟨ha, h.symm⟩
  | some priv => right; exact ⟨priv, ha, h⟩

theorem signHook_same {E : Env} {kw : Attrs} {m m' : Msg} (h : signHook E kw m = .ok m') :
    m'.cls = m.cls ∧ m'.ty = m.ty ∧ m'.ts = m.ts ∧ m'.enc = m.enc ∧ m'.attrs = m.attrs := by
  rcases signHook_cases h with ⟨_, rfl⟩ | ⟨priv, _, hs⟩
  · exact ⟨rfl, rfl, rfl, rfl, rfl⟩
  · unfold Msg.signMessage at hs
    split at hs
    · cases hs
    split at hs <;> cases hs
    exact ⟨rfl, rfl, rfl, rfl, rfl⟩

/-- What a factory of the tables does. -/
theorem makeAt_ok {E : Env} {G : Getter} {keccak : Bytes → Bytes} {d : Draws} {n : Nat} {path : List PStr}
    {c : Cls} {files : Option (List Attrs)} {kw : Attrs} {m : Msg} (h1 : c ≠ .TaskToCompute)
    (h2 : c ≠ .WantToComputeTask) (h : makeAt E G keccak d (n + 1) path c files kw = .ok m) :
    ∃ f fields m0 m1, c.factory = some f ∧
      declared E d (makeAt E G keccak d n) path kw (withFiles files f.decls) = .ok fields ∧
      newMessage E G (d.now path) c none .none .none false (fields ++ extraArgs f.roots kw) = .ok m0 ∧
      signHook E kw m0 = .ok m1 ∧ runHooks E G d (makeAt E G keccak d n) path kw f.hooks m1 = .ok m := by
  unfold makeAt at h
  rw [if_neg h1, if_neg h2] at h
  split at h
  · cases h
  rename_i f hf
  split at h
  · cases h
  rename_i fields hfields
  split at h
  · cases h
  rename_i m0 hm0
  split at h
  · cases h
  rename_i m1 hm1
  exact ⟨f, fields, m0, m1, hf, hfields, hm0, hm1, h⟩

theorem declared_names {E : Env} {d : Draws} {mk : Maker} {path : List PStr} {kw : Attrs} :
    ∀ {decls : List (PStr × Decl)} {fields : Attrs}, declared E d mk path kw decls = .ok fields →
      fields.map Prod.fst = decls.map Prod.fst
  | [], fields, h => by
    unfold declared at h
    injection h with h
    subst h
    rfl
  | (n, dcl) :: rest, fields, h => by
    unfold declared at h
    split at h
    · cases h
    split at h
    · cases h
    rename_i vs hvs
    injection h with h
    subst h
    simp only [List.map_cons, declared_names hvs]

theorem declared_get {E : Env} {d : Draws} {mk : Maker} {path : List PStr} {kw : Attrs} {n : PStr}
    {dcl : Decl} :
    ∀ {decls : List (PStr × Decl)} {fields : Attrs}, declared E d mk path kw decls = .ok fields →
      (decls.map Prod.fst).Nodup → (n, dcl) ∈ decls →
      ∃ v, lookupName n fields = some v ∧
        given kw n (dcl.value E d mk (path ++ [n]) (subArgs n kw)) = .ok v
  | [], fields, _, _, hm => by cases hm
  | (k, dc) :: rest, fields, h, hnd, hm => by
    unfold declared at h
    split at h
    · cases h
    rename_i v hv
    split at h
    · cases h
    rename_i vs hvs
    injection h with h
    subst h
    simp only [List.map_cons, List.nodup_cons] at hnd
    rcases List.mem_cons.mp hm with e | hm
    · injection e with e1 e2
      subst e1 e2
      exact ⟨v, by simp [lookupName_cons], hv⟩
    · obtain ⟨w, hw1, hw2⟩ := declared_get hvs hnd.2 hm
      refine ⟨w, ?_, hw2⟩
      rw [lookupName_cons, if_neg, hw1]
      rintro rfl
      exact hnd.1 (List.mem_map.mpr ⟨_, hm, rfl⟩)

theorem withFiles_names (files : Option (List Attrs)) (decls : List (PStr × Decl)) :
    (withFiles files decls).map Prod.fst = decls.map Prod.fst := by
  unfold withFiles
  split
  · rfl
  · rw [List.map_map]
    congr 1
    funext nd
    simp only [Function.comp]
    split <;> rfl

theorem withFiles_mem {files : Option (List Attrs)} {decls : List (PStr × Decl)} {n : PStr} {dcl : Decl}
    (hn : n ≠ p!"files") (h : (n, dcl) ∈ decls) : (n, dcl) ∈ withFiles files decls := by
  unfold withFiles
  split
  · exact h
  · refine List.mem_map.mpr ⟨_, h, ?_⟩
    rw [if_neg hn]

/-- The field a hook writes to. -/
def Hook.target (name : PStr) : Hook → PStr
  | .operation _ => p!"operation"
  | .sharedReport => p!"ack_report_computed_task"
  | _ => name

theorem set_other {m : Msg} {n k : PStr} {v : Val} (h : k ≠ n) :
    getAttr (m.set n v).attrs k = getAttr m.attrs k := by
  unfold Msg.set
  rw [getAttr_setName, if_neg h]

theorem set_same {m : Msg} {n : PStr} {v : Val} : getAttr (m.set n v).attrs n = v := by
  unfold Msg.set
  rw [getAttr_setName, if_pos rfl]

/-- A hook changes nothing but the field it writes to. -/
theorem hook_keeps {E : Env} {G : Getter} {d : Draws} {mk : Maker} {path : List PStr} {name : PStr}
    {kw : Attrs} {m m' : Msg} {hook : Hook} (h : hook.run E G d mk path name kw m = .ok m') :
    m'.cls = m.cls ∧ m'.ty = m.ty ∧ m'.ts = m.ts ∧ m'.enc = m.enc ∧ m'.sig = m.sig ∧
    ∀ k, k ≠ hook.target name → getAttr m'.attrs k = getAttr m.attrs k := by
  have hset : ∀ n v, (m.set n v).cls = m.cls ∧ (m.set n v).ty = m.ty ∧ (m.set n v).ts = m.ts ∧
      (m.set n v).enc = m.enc ∧ (m.set n v).sig = m.sig ∧
      ∀ k, k ≠ n → getAttr (m.set n v).attrs k = getAttr m.attrs k :=
    fun n v => ⟨rfl, rfl, rfl, rfl, rfl, fun k hk => set_other hk⟩
  have hid : ∀ n, m.cls = m.cls ∧ m.ty = m.ty ∧ m.ts = m.ts ∧ m.enc = m.enc ∧ m.sig = m.sig ∧
      ∀ k, k ≠ n → getAttr m.attrs k = getAttr m.attrs k :=
    fun n => ⟨rfl, rfl, rfl, rfl, rfl, fun _ _ => rfl⟩
  cases hook with
  | optional c =>
    unfold Hook.run at h
    dsimp only at h
    split at h
    · split at h
      · cases h
      injection h with h; subst h; exact hset _ _
    · injection h with h; subst h; exact hset _ _
  | operation mem =>
    unfold Hook.run at h
    dsimp only at h
    split at h
    · injection h with h; subst h; exact hset _ _
    · injection h with h; subst h; exact hid _
  | generate c =>
    unfold Hook.run at h
    dsimp only at h
    split at h
    · injection h with h; subst h; exact hset _ _
    split at h
    · injection h with h; subst h; exact hid _
    split at h
    · cases h
    split at h
    · split at h
      · cases h
      injection h with h; subst h; exact hset _ _
    · injection h with h; subst h; exact hid _
  | acceptedList =>
    unfold Hook.run at h
    dsimp only at h
    split at h
    · injection h with h; subst h; exact hset _ _
    split at h
    · split at h
      · cases h
      split at h
      · cases h
      split at h
      · injection h with h; subst h; exact hid _
      · injection h with h; subst h; exact hset _ _
    · injection h with h; subst h; exact hid _
  | sharedReport =>
    unfold Hook.run verdictReport at h
    dsimp only at h
    split at h
    · cases h
    split at h
    · cases h
    split at h
    · cases h
    split at h
    · injection h with h; subst h
      exact hset p!"ack_report_computed_task" _
    · cases h

theorem hooks_keep {E : Env} {G : Getter} {d : Draws} {mk : Maker} {path : List PStr} {kw : Attrs} :
    ∀ {hooks : List (PStr × Hook)} {m m' : Msg}, runHooks E G d mk path kw hooks m = .ok m' →
    m'.cls = m.cls ∧ m'.ty = m.ty ∧ m'.ts = m.ts ∧ m'.enc = m.enc ∧ m'.sig = m.sig ∧
    ∀ k, (∀ nh ∈ hooks, k ≠ nh.2.target nh.1) → getAttr m'.attrs k = getAttr m.attrs k
  | [], m, m', h => by
    unfold runHooks at h
    injection h with h
    subst h
    exact ⟨rfl, rfl, rfl, rfl, rfl, fun _ _ => rfl⟩
  | (name, hook) :: rest, m, m', h => by
    unfold runHooks at h
    split at h
    · cases h
    rename_i m1 h1
    obtain ⟨a1, a2, a3, a4, a5, a6⟩ := hook_keeps h1
    obtain ⟨b1, b2, b3, b4, b5, b6⟩ := hooks_keep h
    refine ⟨b1.trans a1, b2.trans a2, b3.trans a3, b4.trans a4, b5.trans a5, fun k hk => ?_⟩
    rw [b6 k (fun nh hn => hk nh (List.mem_cons_of_mem _ hn)), a6 k (hk _ (List.mem_cons_self ..))]

/-- The value of a field is what the hook that writes to it left. -/
theorem hooks_at {E : Env} {G : Getter} {d : Draws} {mk : Maker} {path : List PStr} {kw : Attrs} {name : PStr}
    {hook : Hook} :
    ∀ {hooks : List (PStr × Hook)} {m m' : Msg}, runHooks E G d mk path kw hooks m = .ok m' →
    (name, hook) ∈ hooks → (hooks.map fun nh => nh.2.target nh.1).Nodup →
    ∃ a b, hook.run E G d mk path name kw a = .ok b ∧
      getAttr a.attrs (hook.target name) = getAttr m.attrs (hook.target name) ∧
      getAttr m'.attrs (hook.target name) = getAttr b.attrs (hook.target name)
  | [], m, m', _, hm, _ => by cases hm
  | (k, hk) :: rest, m, m', h, hm, hnd => by
    unfold runHooks at h
    split at h
    · cases h
    rename_i m1 h1
    simp only [List.map_cons, List.nodup_cons] at hnd
    rcases List.mem_cons.mp hm with e | hm
    · injection e with e1 e2
      subst e1 e2
      refine ⟨m, m1, h1, rfl, (hooks_keep h).2.2.2.2.2 _ fun nh hn e => hnd.1 ?_⟩
      exact List.mem_map.mpr ⟨nh, hn, e.symm⟩
    · obtain ⟨a, b, ha, hb, hc⟩ := hooks_at h hm hnd.2
      refine ⟨a, b, ha, hb.trans ((hook_keeps h1).2.2.2.2.2 _ fun e => hnd.1 ?_), hc⟩
      exact List.mem_map.mpr ⟨_, hm, e⟩

/-- The class of the messages a declaration makes. -/
def Decl.makes : Decl → Option Cls
  | .message c _ _ => some c
  | _ => none

/-- The arguments declared with a sub-factory. -/
def Decl.preset : Decl → Attrs
  | .message _ a _ => a
  | _ => []

/-- The class of the messages a hook makes on demand. -/
def Hook.makes : Hook → Option Cls
  | .optional c => some c
  | _ => none

end Verif
