import Verif.Spec.Caches
import Verif.Props.Ecies
/-!
# C77, C78: the caches of the key manager
-/

set_option linter.unusedSimpArgs false

namespace Verif.Props

open Verif Spec

/-! ### `lru_cache` -/

/-- Every entry is a result of the function. -/
private def Sound {α β : Type} (f : α → Res β) (c : List (α × β)) : Prop := ∀ e ∈ c, f e.1 = .ok e.2

private theorem lru_call {α β : Type} [DecidableEq α] {f : α → Res β} {c : List (α × β)}
    (h : Sound f c) (a : α) : (lruCall f c a).1 = f a ∧ Sound f (lruCall f c a).2 := by
  unfold lruCall
  cases hf : c.find? fun e => e.1 = a with
  | some e =>
    have h1 := List.find?_some hf
    have h2 := h e (List.mem_of_find?_eq_some hf)
    simp only [decide_eq_true_eq] at h1
    refine ⟨by rw [← h1, h2], ?_⟩
    intro x hx
    rcases List.mem_cons.mp hx with rfl | hx
    · exact h2
    · exact h x (List.mem_filter.mp hx).1
  | none =>
    cases hr : f a with
    | error e => exact ⟨rfl, h⟩
    | ok b =>
      refine ⟨rfl, ?_⟩
      intro x hx
      rcases List.mem_cons.mp (List.mem_of_mem_take hx) with rfl | hx
      · exact hr
      · exact h x hx

private theorem lru_run {α β : Type} [DecidableEq α] {f : α → Res β} :
    ∀ (calls : List α) {c : List (α × β)}, Sound f c →
      (lruRun f c calls).1 = calls.map f ∧ Sound f (lruRun f c calls).2
  | [], _, h => ⟨rfl, h⟩
  | a :: rest, c, h => by
    obtain ⟨h1, h2⟩ := lru_call h a
    obtain ⟨h3, h4⟩ := lru_run rest h2
    unfold lruRun
    exact ⟨by simp only [List.map_cons, h1, h3], h4⟩

/-- C77: a function under `lru_cache` answers every call of every history as the function itself. -/
theorem lru_transparent {α β : Type} [DecidableEq α] (f : α → Res β) (calls : List α) :
    (lruRun f [] calls).1 = calls.map f :=
  (lru_run calls (fun e he => by cases he)).1

private theorem latest_nodup {α : Type} [DecidableEq α] : ∀ l : List α, (latest l).Nodup
  | [] => List.nodup_nil
  | a :: rest => by
    unfold latest
    refine List.nodup_cons.mpr ⟨by simp, (latest_nodup rest).filter _⟩

private theorem filter_take {α : Type} [DecidableEq α] (a : α) :
    ∀ (n : Nat) (l : List α), l.Nodup → a ∈ l.take n →
      a :: (l.take n).filter (fun x => ¬ x = a) = (a :: l.filter fun x => ¬ x = a).take n
  | 0, l, _, h => by simp at h
  | n + 1, [], _, h => by simp at h
  | n + 1, b :: l, hd, h => by
    obtain ⟨h1, h2⟩ := List.nodup_cons.mp hd
    by_cases hb : b = a
    · subst hb
      have h3 : ∀ m : List α, b ∉ m → m.filter (fun x => ¬ x = b) = m := by
        intro m hm
        apply List.filter_eq_self.mpr
        intro x hx
        simp only [decide_not, Bool.not_eq_eq_eq_not, Bool.not_true, decide_eq_false_iff_not]
        rintro rfl
        exact hm hx
      rw [List.take_succ_cons, List.filter_cons, List.filter_cons]
      simp only [not_true_eq_false, decide_false, Bool.false_eq_true, if_false]
      rw [h3 l h1, h3 (l.take n) (fun hx => h1 (List.mem_of_mem_take hx)), List.take_succ_cons]
    · rw [List.take_succ_cons] at h ⊢
      rcases List.mem_cons.mp h with e | h
      · exact absurd e.symm hb
      have ih := filter_take a n l h2 h
      rw [List.filter_cons, List.filter_cons]
      simp only [hb, not_false_eq_true, decide_true, if_true]
      rw [List.take_succ_cons]
      cases n with
      | zero => simp at h
      | succ n =>
        rw [List.take_succ_cons] at ih ⊢
        injection ih with _ ih
        rw [ih]

private theorem filter_miss {α : Type} [DecidableEq α] (a : α) :
    ∀ (n : Nat) (l : List α), a ∉ l.take n →
      (l.filter fun x => ¬ x = a).take (n - 1) = (l.take n).take (n - 1)
  | 0, l, _ => by simp
  | 1, l, _ => by simp
  | n + 2, [], _ => by simp
  | n + 2, b :: l, h => by
    rw [List.take_succ_cons] at h
    have hb : ¬ b = a := fun e => h (by simp [e])
    have ih := filter_miss a (n + 1) l (fun hx => h (List.mem_cons_of_mem _ hx))
    rw [List.filter_cons]
    simp only [hb, not_false_eq_true, decide_true, if_true]
    simp only [Nat.add_one_sub_one, Nat.succ_eq_add_one] at ih ⊢
    rw [List.take_succ_cons, List.take_succ_cons, List.take_succ_cons, ih]

private theorem find_none {α β : Type} [DecidableEq α] {c : List (α × β)} {a : α} :
    (c.find? fun e => e.1 = a) = none ↔ a ∉ c.map Prod.fst := by
  rw [List.find?_eq_none]
  simp only [decide_eq_true_eq, List.mem_map, not_exists, not_and]

private theorem lru_call_keys {α β : Type} [DecidableEq α] {f : α → Res β} {c : List (α × β)}
    (hs : Sound f c) {l : List α} (h : c.map Prod.fst = (latest l).take cacheSize) (a : α) :
    (lruCall f c a).2.map Prod.fst =
      (latest (if (f a).isOk then a :: l else l)).take cacheSize := by
  unfold lruCall
  cases hf : c.find? fun e => e.1 = a with
  | some e =>
    have h1 := List.find?_some hf
    simp only [decide_eq_true_eq] at h1
    have hm := List.mem_of_find?_eq_some hf
    have h2 := hs e hm
    rw [h1] at h2
    rw [h2]
    simp only [Except.isOk, Except.toBool, if_true, List.map_cons]
    have hk : (c.filter fun x => ¬ x.1 = a).map Prod.fst =
        (c.map Prod.fst).filter fun x => ¬ x = a := by
      rw [List.filter_map]; rfl
    rw [hk, h, h1]
    show _ = (a :: (latest l).filter fun x => ¬ x = a).take cacheSize
    refine filter_take a cacheSize (latest l) (latest_nodup l) ?_
    rw [← h]
    exact List.mem_map.mpr ⟨e, hm, h1⟩
  | none =>
    have hn := find_none.mp hf
    cases hr : f a with
    | error e => simpa [Except.isOk, Except.toBool] using h
    | ok b =>
      simp only [Except.isOk, Except.toBool, if_true]
      rw [h] at hn
      unfold latest
      rw [List.map_take, List.map_cons, h]
      have := filter_miss a cacheSize (latest l) hn
      rw [show cacheSize = cacheSize - 1 + 1 from rfl, List.take_succ_cons, List.take_succ_cons]
      rw [show cacheSize - 1 + 1 = cacheSize from rfl]
      rw [this]

private theorem lru_run_keys {α β : Type} [DecidableEq α] {f : α → Res β} :
    ∀ (calls : List α) {c : List (α × β)} {l : List α}, Sound f c →
      c.map Prod.fst = (latest l).take cacheSize →
      (lruRun f c calls).2.map Prod.fst =
        (latest ((calls.filter fun a => (f a).isOk).reverse ++ l)).take cacheSize
  | [], _, _, _, h => by simpa [lruRun] using h
  | a :: rest, c, l, hs, h => by
    have h1 := lru_call_keys hs h a
    have h2 := lru_run_keys rest (lru_call hs a).2 h1
    unfold lruRun
    simp only
    rw [h2, List.filter_cons]
    cases (f a).isOk <;> simp

/-- C77: after any history the cache holds the 1024 arguments that were used last without an exception,
most recently used first, each with the result of the function. -/
theorem lru_contents {α β : Type} [DecidableEq α] (f : α → Res β) (calls : List α) :
    (lruRun f [] calls).2.map Prod.fst =
      (latest (calls.filter fun a => (f a).isOk).reverse).take 1024 ∧
    ∀ e ∈ (lruRun f [] calls).2, f e.1 = .ok e.2 := by
  have h0 : Sound f ([] : List (α × β)) := fun e he => by cases he
  refine ⟨?_, (lru_run calls h0).2⟩
  have := lru_run_keys (l := []) calls h0 (by simp [latest])
  rw [this, List.append_nil]
  rfl

example : (lruRun (fun n : Nat => if n = 3 then .error .typeError else .ok (n + 10)) []
    [1, 2, 3, 1]) = ([.ok 11, .ok 12, .error .typeError, .ok 11], [(1, 11), (2, 12)]) := by decide

/-! ### The process -/

private structure Clean (X : EciesEnv) (O : KeyObjects) (s : Process) : Prop where
  shared : Sound (fun a : Bytes × Bytes => O.dh a.1 a.2) s.shared
  derived : Sound (fun a : Nat × Bytes => derivedKeys X a.2) s.derived

/-- Agreement and derivation without caches. -/
private def agreed (X : EciesEnv) (raw pub : Bytes) : Res (Bytes × Bytes) :=
  match X.ecdh raw pub with
  | .error e => .error e
  | .ok km => if km.length ≠ 32 then .error .assertionError else derivedKeys X km

private theorem agree_step {X : EciesEnv} {O : KeyObjects} (hO : KeyObjects.Of O X) {s : Process}
    (h : Clean X O s) (mgr : Nat) (raw pub : Bytes) :
    (s.agree X O mgr raw pub).1 = agreed X raw pub ∧ (s.agree X O mgr raw pub).2.live = s.live ∧
      Clean X O (s.agree X O mgr raw pub).2 := by
  unfold Process.agree agreed
  rw [hO raw pub]
  cases hs : O.secret raw with
  | error e => exact ⟨rfl, rfl, h⟩
  | ok sec =>
    simp only
    obtain ⟨h1, h2⟩ := lru_call h.shared (sec, pub)
    simp only at h1
    rw [← h1]
    revert h2
    cases lruCall (fun a : Bytes × Bytes => O.dh a.1 a.2) s.shared (sec, pub) with
    | mk r c =>
      intro h2
      cases r with
      | error e => exact ⟨rfl, rfl, ⟨h2, h.derived⟩⟩
      | ok km =>
        simp only
        by_cases hl : km.length = 32
        · rw [if_neg (by simp [hl]), if_neg (by simp [hl])]
          obtain ⟨h3, h4⟩ := lru_call h.derived (mgr, km)
          exact ⟨h3, rfl, ⟨h2, h4⟩⟩
        · rw [if_pos hl, if_pos hl]
          exact ⟨rfl, rfl, ⟨h2, h.derived⟩⟩

private theorem ephemKeys_agreed (X : EciesEnv) (raw rawPub : Bytes) :
    ephemKeys X raw rawPub =
      match X.compress rawPub with
      | .error e => .error e
      | .ok pk =>
        match agreed X raw pk with
        | .error e => .error e
        | .ok ks => .ok (ks.1, ks.2, X.pub raw) := by
  unfold ephemKeys agreed
  cases X.compress rawPub with
  | error e => rfl
  | ok pk =>
    simp only
    cases X.ecdh raw pk with
    | error e => rfl
    | ok km =>
      simp only
      split
      · rfl
      · cases derivedKeys X km with
        | error e => rfl
        | ok ks => rfl

private theorem ephemKey_step {X : EciesEnv} {O : KeyObjects} (hO : KeyObjects.Of O X)
    {draw : Nat → Bytes} {timeout : Int} {s : Process} (h : Clean X O s) (mgr : Nat) (rawPub : Bytes)
    (now : Int) :
    (s.ephemKey X O draw timeout mgr rawPub now).1 =
      (s.live.ephemKey X draw timeout mgr rawPub now).1 ∧
    (s.ephemKey X O draw timeout mgr rawPub now).2.live =
      (s.live.ephemKey X draw timeout mgr rawPub now).2 ∧
    Clean X O (s.ephemKey X O draw timeout mgr rawPub now).2 := by
  unfold Process.ephemKey LiveKeys.ephemKey
  cases s.live.cache.find? fun e => e.mgr == mgr && e.pubkey == rawPub with
  | some e => exact ⟨rfl, rfl, ⟨h.shared, h.derived⟩⟩
  | none =>
    simp only
    rw [ephemKeys_agreed]
    cases X.compress rawPub with
    | error e => exact ⟨rfl, rfl, ⟨h.shared, h.derived⟩⟩
    | ok pk =>
      simp only
      have hc : Clean X O { s with live :=
          { s.live.cleaned timeout mgr now with drawn := s.live.drawn + 1 } } :=
        ⟨h.shared, h.derived⟩
      obtain ⟨h1, h2, h3⟩ := agree_step hO hc mgr (draw s.live.drawn) pk
      rw [← h1]
      revert h2 h3
      cases Process.agree X O _ mgr (draw s.live.drawn) pk with
      | mk r s2 =>
        intro h2 h3
        simp only at h2
        cases r with
        | error e => exact ⟨rfl, h2, h3⟩
        | ok ks =>
          refine ⟨rfl, ?_, ⟨h3.shared, h3.derived⟩⟩
          simp only
          rw [h2]

private theorem decrypt_agreed (X : EciesEnv) (data priv mac : Bytes) :
    eciesDecrypt X data priv mac =
      if data.take 1 ≠ [4] then .error .decryptionError
      else
        match agreed X priv (data.take 65) with
        | .error e => .error e
        | .ok keys => eciesOpen X keys data mac := by
  unfold eciesDecrypt agreed eciesOpen
  split
  · rfl
  cases X.ecdh priv (data.take 65) with
  | error e => rfl
  | ok km =>
    simp only
    split
    · rfl
    cases derivedKeys X km with
    | error e => rfl
    | ok ks => rfl

private theorem process_run {X : EciesEnv} {O : KeyObjects} (hO : KeyObjects.Of O X)
    {draw : Nat → Bytes} {timeout : Int} : ∀ (calls : List CryptoCall) {s : Process}, Clean X O s →
    (s.run X O draw timeout calls).1 = answers X draw timeout s.live calls
  | [], _, _ => rfl
  | .encrypt mgr now iv rawPub data mac :: rest, s, h => by
    obtain ⟨h1, h2, h3⟩ := ephemKey_step hO (draw := draw) (timeout := timeout) h mgr rawPub now
    unfold Process.run answers
    simp only [Process.step, Process.encrypt]
    rw [← h1, ← h2]
    revert h3
    cases s.ephemKey X O draw timeout mgr rawPub now with
    | mk r s' =>
      intro h3
      simp only at h3
      have := process_run hO (draw := draw) (timeout := timeout) rest h3
      cases r with
      | error e => simp only; rw [this]
      | ok ks => simp only; rw [this]
  | .decrypt mgr data priv mac :: rest, s, h => by
    unfold Process.run answers
    simp only [Process.step, Process.decrypt]
    rw [decrypt_agreed]
    split
    · simp only
      rw [process_run hO rest h]
    obtain ⟨h1, h2, h3⟩ := agree_step hO h mgr priv (data.take 65)
    rw [← h1, ← h2]
    revert h3
    cases s.agree X O mgr priv (data.take 65) with
    | mk r s' =>
      intro h3
      have := process_run hO (draw := draw) (timeout := timeout) rest h3
      cases r with
      | error e => simp only; rw [this]
      | ok ks => simp only; rw [this]

private theorem fresh_clean (X : EciesEnv) (O : KeyObjects) (created : Nat → Int) :
    Clean X O (.fresh created) where
  shared := fun e he => by cases he
  derived := fun e he => by cases he

/-- C77: the caches of agreed secrets and of derived keys change no answer: in every process, for every
sequence of encryptions and decryptions by any managers, each call returns (or raises) what it would
with these values computed anew. -/
theorem caches_transparent (X : EciesEnv) (O : KeyObjects) (hO : KeyObjects.Of O X)
    (draw : Nat → Bytes) (timeout : Int) (created : Nat → Int) (calls : List CryptoCall) :
    ((Process.fresh created).run X O draw timeout calls).1 =
      answers X draw timeout (.fresh created) calls :=
  process_run hO calls (fresh_clean X O created)

/-! The answers are not all alike: two encryptions for the same recipient, a decryption and a refusal. -/

/-- The key objects of the toy environment. -/
private def toyO : KeyObjects := ⟨fun raw => .ok raw, toyX.ecdh⟩

private theorem toyO_of : KeyObjects.Of toyO toyX := fun _ _ => rfl

private def toyCalls : List CryptoCall :=
  [.encrypt 0 10 (List.replicate 16 9) ((toyX.pub [2]).drop 1) [1, 2] [],
   .encrypt 0 11 (List.replicate 16 9) ((toyX.pub [2]).drop 1) [3] [],
   .decrypt 1 (5 :: List.replicate 120 0) [2] []]

example : (((Process.fresh fun _ => 0).run toyX toyO (fun i => [UInt8.ofNat i + 1]) 3600
    toyCalls).1).map Except.isOk = [true, true, false] := by decide +kernel

example : (((Process.fresh fun _ => 0).run toyX toyO (fun i => [UInt8.ofNat i + 1]) 3600
    toyCalls).1) = answers toyX (fun i => [UInt8.ofNat i + 1]) 3600 (.fresh fun _ => 0) toyCalls :=
  caches_transparent toyX toyO toyO_of _ _ _ _

/-! ### C78 -/

private theorem agree_keys {X : EciesEnv} {O : KeyObjects} {s : Process} (h : Clean X O s)
    {l : List (Bytes × Bytes)} (hl : s.shared.map Prod.fst = (latest l).take cacheSize) (mgr : Nat)
    (raw pub : Bytes) :
    (s.agree X O mgr raw pub).2.shared.map Prod.fst =
      (latest (((agreement O raw pub).filter fun a => (O.dh a.1 a.2).isOk) ++ l)).take cacheSize := by
  unfold Process.agree agreement
  cases hs : O.secret raw with
  | error e => simpa using hl
  | ok sec =>
    simp only
    have h1 := lru_call_keys h.shared hl (sec, pub)
    have h2 : (latest (([(sec, pub)].filter fun a : Bytes × Bytes => (O.dh a.1 a.2).isOk) ++ l)).take
        cacheSize = (lruCall (fun a : Bytes × Bytes => O.dh a.1 a.2) s.shared (sec, pub)).2.map
          Prod.fst := by
      rw [h1, List.filter_cons]
      simp only
      cases (O.dh sec pub).isOk <;> simp
    rw [h2]
    cases lruCall (fun a : Bytes × Bytes => O.dh a.1 a.2) s.shared (sec, pub) with
    | mk r c =>
      cases r with
      | error e => rfl
      | ok km =>
        simp only
        split <;> rfl

private theorem find_entry {c : List LiveEntry} {mgr : Nat} {rawPub : Bytes} :
    (c.find? fun e => e.mgr == mgr && e.pubkey == rawPub) = none ↔
      ¬ ∃ e ∈ c, e.mgr = mgr ∧ e.pubkey = rawPub := by
  rw [List.find?_eq_none]
  simp

private theorem ephemKey_keys {X : EciesEnv} {O : KeyObjects} {draw : Nat → Bytes} {timeout : Int}
    {s : Process} (h : Clean X O s) {l : List (Bytes × Bytes)}
    (hl : s.shared.map Prod.fst = (latest l).take cacheSize) (mgr : Nat) (rawPub : Bytes)
    (now : Int) :
    (s.ephemKey X O draw timeout mgr rawPub now).2.shared.map Prod.fst =
      (latest (((if ∃ e ∈ s.live.cache, e.mgr = mgr ∧ e.pubkey = rawPub then []
        else
          match X.compress rawPub with
          | .ok pk => agreement O (draw s.live.drawn) pk
          | .error _ => []).filter fun a => (O.dh a.1 a.2).isOk) ++ l)).take cacheSize := by
  unfold Process.ephemKey
  cases hf : s.live.cache.find? fun e => e.mgr == mgr && e.pubkey == rawPub with
  | some e =>
    rw [if_pos (Decidable.not_not.mp fun hn => by rw [find_entry.mpr hn] at hf; cases hf)]
    simpa using hl
  | none =>
    rw [if_neg (find_entry.mp hf)]
    simp only
    cases X.compress rawPub with
    | error e => simpa using hl
    | ok pk =>
      simp only
      have hc : Clean X O { s with live :=
          { s.live.cleaned timeout mgr now with drawn := s.live.drawn + 1 } } :=
        ⟨h.shared, h.derived⟩
      rw [← agree_keys hc hl mgr (draw s.live.drawn) pk]
      cases Process.agree X O _ mgr (draw s.live.drawn) pk with
      | mk r s2 => cases r <;> rfl

private theorem encrypt_state (X : EciesEnv) (O : KeyObjects) (draw : Nat → Bytes) (timeout : Int)
    (s : Process) (mgr : Nat) (now : Int) (iv rawPub data mac : Bytes) :
    (s.encrypt X O draw timeout mgr now iv rawPub data mac).2 =
      (s.ephemKey X O draw timeout mgr rawPub now).2 := by
  unfold Process.encrypt
  cases s.ephemKey X O draw timeout mgr rawPub now with
  | mk r s2 => cases r <;> rfl

private theorem agreement_reverse (O : KeyObjects) (raw pub : Bytes) (p : Bytes × Bytes → Bool) :
    ((agreement O raw pub).filter p).reverse = (agreement O raw pub).filter p := by
  unfold agreement
  split
  · rw [List.filter_cons]; split <;> rfl
  · rfl

private theorem process_keys {X : EciesEnv} {O : KeyObjects} (hO : KeyObjects.Of O X)
    {draw : Nat → Bytes} {timeout : Int} : ∀ (calls : List CryptoCall) {s : Process}
    {l : List (Bytes × Bytes)}, Clean X O s → s.shared.map Prod.fst = (latest l).take cacheSize →
    (s.run X O draw timeout calls).2.shared.map Prod.fst =
      (latest (((agreements X O draw timeout s.live calls).filter
        fun a => (O.dh a.1 a.2).isOk).reverse ++ l)).take cacheSize
  | [], _, _, _, hl => by simpa [agreements, Process.run] using hl
  | .encrypt mgr now iv rawPub data mac :: rest, s, l, h, hl => by
    obtain ⟨_, h2, h3⟩ := ephemKey_step hO (draw := draw) (timeout := timeout) h mgr rawPub now
    have hrun := process_keys hO (draw := draw) (timeout := timeout) rest h3
      (ephemKey_keys h hl mgr rawPub now)
    rw [h2] at hrun
    unfold Process.run agreements
    simp only [Process.step]
    rw [encrypt_state, hrun, List.filter_append, List.reverse_append, List.append_assoc]
    congr 4
    split
    · rfl
    · cases X.compress rawPub with
      | ok pk => exact (agreement_reverse _ _ _ _).symm
      | error e => rfl
  | .decrypt mgr data priv mac :: rest, s, l, h, hl => by
    unfold Process.run agreements
    simp only [Process.step]
    have hd : data.head? = some 4 ↔ data.take 1 = [4] := by
      cases data <;> simp
    by_cases h4 : data.take 1 = [4]
    · obtain ⟨_, h2, h3⟩ := agree_step hO h mgr priv (data.take 65)
      have hrun := process_keys hO (draw := draw) (timeout := timeout) rest h3
        (agree_keys h hl mgr priv (data.take 65))
      rw [h2] at hrun
      have hst : (s.decrypt X O mgr data priv mac).2 = (s.agree X O mgr priv (data.take 65)).2 := by
        unfold Process.decrypt
        rw [if_neg (by simp [h4])]
        cases s.agree X O mgr priv (data.take 65) with
        | mk r s2 => cases r <;> rfl
      rw [if_pos (hd.mpr h4), hst, hrun, List.filter_append, List.reverse_append, List.append_assoc,
        agreement_reverse]
    · have hst : (s.decrypt X O mgr data priv mac).2 = s := by
        unfold Process.decrypt
        rw [if_pos h4]
      rw [if_neg (fun e => h4 (hd.mp e)), hst]
      exact process_keys hO rest h hl

/-- C78: what is held after any sequence of calls: secret and public key of the last 1024 different
agreements that went through, whatever the timeout and the times of the calls. -/
theorem secrets_held (X : EciesEnv) (O : KeyObjects) (hO : KeyObjects.Of O X) (draw : Nat → Bytes)
    (timeout : Int) (created : Nat → Int) (calls : List CryptoCall) :
    ((Process.fresh created).run X O draw timeout calls).2.shared.map Prod.fst =
      (latest ((agreements X O draw timeout (.fresh created) calls).filter
        fun a => (O.dh a.1 a.2).isOk).reverse).take 1024 := by
  have := process_keys hO (draw := draw) (timeout := timeout) (l := []) calls (fresh_clean X O created)
    (by simp [latest, Process.fresh])
  rw [this, List.append_nil]
  rfl

private theorem latest_append {α : Type} [DecidableEq α] : ∀ (x y : List α),
    latest (x ++ y) = latest x ++ (latest y).filter fun a => a ∉ x
  | [], y => by
    simp only [List.nil_append, latest, List.not_mem_nil, not_false_eq_true, decide_true]
    exact (List.filter_eq_self.mpr fun _ _ => rfl).symm
  | a :: x, y => by
    rw [List.cons_append]
    show a :: (latest (x ++ y)).filter (fun b => ¬ b = a) =
      a :: (latest x).filter (fun b => ¬ b = a) ++ (latest y).filter fun b => b ∉ a :: x
    rw [latest_append x y, List.filter_append, List.filter_filter, List.cons_append]
    congr 2
    apply List.filter_congr
    intro b _
    simp only [List.mem_cons, not_or, Bool.decide_and, decide_not]

private theorem latest_mem {α : Type} [DecidableEq α] {a : α} : ∀ {l : List α}, a ∈ latest l → a ∈ l
  | [], h => by simp [latest] at h
  | b :: l, h => by
    unfold latest at h
    rcases List.mem_cons.mp h with rfl | h
    · simp
    · exact List.mem_cons_of_mem _ (latest_mem (List.mem_filter.mp h).1)

/-- C78: a private key is no longer held once 1024 different agreements without it have gone through. -/
theorem secret_forgotten (X : EciesEnv) (O : KeyObjects) (hO : KeyObjects.Of O X) (draw : Nat → Bytes)
    (timeout : Int) (created : Nat → Int) (calls : List CryptoCall) (sec : Bytes)
    (older newer : List (Bytes × Bytes))
    (h : (agreements X O draw timeout (.fresh created) calls).filter
      (fun a => (O.dh a.1 a.2).isOk) = older ++ newer)
    (hn : ∀ a ∈ newer, a.1 ≠ sec) (hc : 1024 ≤ (latest newer.reverse).length) :
    ∀ e ∈ ((Process.fresh created).run X O draw timeout calls).2.shared, e.1.1 ≠ sec := by
  intro e he hs
  have hk := secrets_held X O hO draw timeout created calls
  have hm : e.1 ∈ ((Process.fresh created).run X O draw timeout calls).2.shared.map Prod.fst :=
    List.mem_map.mpr ⟨e, he, rfl⟩
  rw [hk, h, List.reverse_append, latest_append, List.take_append_of_le_length hc] at hm
  exact hn e.1 (List.mem_reverse.mp (latest_mem (List.mem_of_mem_take hm))) hs

/-! The hypotheses can be met: an encryption, then 1024 attempts to decrypt with different keys. -/

private theorem latest_of_nodup {α : Type} [DecidableEq α] : ∀ {l : List α}, l.Nodup → latest l = l
  | [], _ => rfl
  | a :: l, h => by
    obtain ⟨h1, h2⟩ := List.nodup_cons.mp h
    show a :: (latest l).filter (fun x => ¬ x = a) = a :: l
    rw [latest_of_nodup h2, List.filter_eq_self.mpr]
    intro x hx
    have : ¬ x = a := fun e => h1 (e ▸ hx)
    simpa using this

private theorem decrypt_agreements (draw : Nat → Bytes) : ∀ (s : LiveKeys) (l : List Bytes),
    agreements toyX toyO draw 3600 s (l.map fun k => .decrypt 0 [4] k []) = l.map fun k => (k, [4])
  | _, [] => rfl
  | s, k :: l => by
    show [(k, [4])] ++ agreements toyX toyO draw 3600 s (l.map fun k => .decrypt 0 [4] k []) = _
    rw [decrypt_agreements draw s l]
    rfl

example : ∀ e ∈ ((Process.fresh fun _ => 0).run toyX toyO (fun _ => [7]) 3600
    (.encrypt 0 10 (List.replicate 16 9) ((toyX.pub [2]).drop 1) [1, 2] [] ::
      ((List.range 1024).map fun n => List.replicate n 3).map fun k => .decrypt 0 [4] k [])).2.shared,
    e.1.1 ≠ [7] := by
  apply secret_forgotten toyX toyO toyO_of _ _ _ _ _ [([7], toyX.pub [2])]
    (((List.range 1024).map fun n => List.replicate n 3).map fun k => (k, [4]))
  · have h := decrypt_agreements (fun _ => [7])
      ((LiveKeys.fresh fun _ => 0).ephemKey toyX (fun _ => [7]) 3600 0 ((toyX.pub [2]).drop 1) 10).2
      ((List.range 1024).map fun n => List.replicate n 3)
    show List.filter _ ([([7], toyX.pub [2])] ++ _) = _
    rw [h]
    exact List.filter_eq_self.mpr fun _ _ => rfl
  · intro a ha h
    simp only [List.map_map, List.mem_map, Function.comp] at ha
    obtain ⟨n, _, rfl⟩ := ha
    have h7 : (7 : UInt8) ∈ List.replicate n (3 : UInt8) := by
      simp only at h
      rw [h]
      simp
    exact absurd (List.mem_replicate.mp h7).2 (by decide)
  · rw [latest_of_nodup]
    · simp
    · rw [List.map_map]
      have : ((List.range 1024).map ((fun k : Bytes => (k, ([4] : Bytes))) ∘
          fun n => List.replicate n (3 : UInt8))).Nodup := by
        apply List.Pairwise.map _ _ (List.nodup_range (n := 1024))
        intro a b hab h
        simp only [Function.comp, Prod.mk.injEq, and_true] at h
        have := congrArg List.length h
        simp at this
        exact hab this
      rw [List.Nodup, List.pairwise_reverse]
      exact this.imp fun h => h.symm

/-- C78, the part that holds: when a manager draws a key after its timeout has passed, no keys drawn
earlier remain ready for use, by any manager. -/
theorem cleanup_partial (X : EciesEnv) (O : KeyObjects) (draw : Nat → Bytes) (timeout : Int)
    (s : Process) (mgr : Nat) (now : Int) (iv rawPub data mac c : Bytes)
    (hm : ∀ e ∈ s.live.cache, ¬ (e.mgr = mgr ∧ e.pubkey = rawPub))
    (ht : s.live.lastCleanup mgr < now - timeout)
    (h : (s.encrypt X O draw timeout mgr now iv rawPub data mac).1 = .ok c) :
    ∃ keys, (s.encrypt X O draw timeout mgr now iv rawPub data mac).2.live.cache =
        [⟨mgr, rawPub, keys⟩] ∧ keys.2.2 = X.pub (draw s.live.drawn) := by
  rw [encrypt_state]
  unfold Process.encrypt at h
  revert h
  unfold Process.ephemKey
  rw [find_entry.mpr (fun ⟨e, h1, h2⟩ => hm e h1 h2)]
  simp only
  cases X.compress rawPub with
  | error e => intro h; cases h
  | ok pk =>
    simp only
    have hl : ∀ s1 : Process, (s1.agree X O mgr (draw s.live.drawn) pk).2.live = s1.live := by
      intro s1
      unfold Process.agree
      cases O.secret (draw s.live.drawn) with
      | error e => rfl
      | ok sec =>
        simp only
        cases lruCall (fun a : Bytes × Bytes => O.dh a.1 a.2) s1.shared (sec, pk) with
        | mk r c =>
          cases r with
          | error e => rfl
          | ok km =>
            simp only
            split <;> rfl
    have h1 := hl { s with live := { s.live.cleaned timeout mgr now with drawn := s.live.drawn + 1 } }
    revert h1
    cases Process.agree X O _ mgr (draw s.live.drawn) pk with
    | mk r s2 =>
      intro h1 h
      cases r with
      | error e => cases h
      | ok ks =>
        refine ⟨(ks.1, ks.2, X.pub (draw s.live.drawn)), ?_, rfl⟩
        simp only at h1 ⊢
        rw [h1]
        unfold LiveKeys.cleaned
        rw [if_pos ht]
        rfl

private theorem ephemKeys_ok {X : EciesEnv} {O : KeyObjects} (hO : KeyObjects.Of O X)
    {raw rawPub : Bytes} {keys : Bytes × Bytes × Bytes} (h : ephemKeys X raw rawPub = .ok keys) :
    ∃ pk sec km, X.compress rawPub = .ok pk ∧ O.secret raw = .ok sec ∧ O.dh sec pk = .ok km := by
  unfold ephemKeys at h
  cases hp : X.compress rawPub with
  | error e => rw [hp] at h; cases h
  | ok pk =>
    rw [hp] at h
    simp only at h
    rw [hO raw pk] at h
    cases hs : O.secret raw with
    | error e => rw [hs] at h; cases h
    | ok sec =>
      rw [hs] at h
      simp only at h
      cases hd : O.dh sec pk with
      | error e => rw [hd] at h; cases h
      | ok km => exact ⟨pk, sec, km, rfl, rfl, hd⟩

private theorem lru_keeps {α β : Type} [DecidableEq α] {f : α → Res β} {c : List (α × β)} {e : α × β}
    (he : e ∈ c) (hu : c.map Prod.fst = [e.1]) (a : α) : e ∈ (lruCall f c a).2 := by
  have hc : c = [e] := by
    cases c with
    | nil => cases he
    | cons x c =>
      cases c with
      | nil => simp at he; rw [he]
      | cons y c => simp at hu
  subst hc
  unfold lruCall
  by_cases h : e.1 = a
  · simp [h]
  · simp only [List.find?_cons, h, decide_false, List.find?_nil]
    cases f a with
    | error x => simp
    | ok b => simp [cacheSize]

private theorem ephemKey_keeps {X : EciesEnv} {O : KeyObjects} {draw : Nat → Bytes} {timeout : Int}
    {s : Process} {e : (Bytes × Bytes) × Bytes} (he : e ∈ s.shared)
    (hu : s.shared.map Prod.fst = [e.1]) (mgr : Nat) (rawPub : Bytes) (now : Int) :
    e ∈ (s.ephemKey X O draw timeout mgr rawPub now).2.shared := by
  unfold Process.ephemKey
  split
  · exact he
  · simp only
    split
    · exact he
    · rename_i pk _
      have key : ∀ s1 : Process, s1.shared = s.shared →
          e ∈ (s1.agree X O mgr (draw s.live.drawn) pk).2.shared := by
        intro s1 h1
        unfold Process.agree
        split
        · rw [h1]; exact he
        · rename_i sec _
          have hk := lru_keeps (f := fun a : Bytes × Bytes => O.dh a.1 a.2) he hu (sec, pk)
          rw [← h1] at hk
          revert hk
          cases lruCall (fun a : Bytes × Bytes => O.dh a.1 a.2) s1.shared (sec, pk) with
          | mk r c =>
            intro hk
            cases r with
            | error e => exact hk
            | ok km =>
              simp only
              split <;> exact hk
      have := key { s with live := { s.live.cleaned timeout mgr now with drawn := s.live.drawn + 1 } } rfl
      revert this
      cases Process.agree X O _ mgr (draw s.live.drawn) pk with
      | mk r s2 => cases r <;> exact id

/-- C78 is false: the clean-up clears one cache of three. A process encrypts for one recipient and, after
the timeout of its manager, for another one. The clean-up has run: keys made with the first ephemeral
key are no longer in use. But the cache of `ecdh` still holds that private key, with the secret it
agreed on. -/
theorem expired_key_held_refuted (X : EciesEnv) (O : KeyObjects) (hO : KeyObjects.Of O X)
    (draw : Nat → Bytes) (timeout : Int) (created : Nat → Int) (mgr : Nat) (t1 t2 : Int)
    (iv1 iv2 k1 k2 d1 d2 m1 m2 c1 c2 : Bytes) (hk : k1 ≠ k2) (h1 : created mgr ≤ t1)
    (h2 : t1 < t2 - timeout)
    (h : ((Process.fresh created).run X O draw timeout
      [.encrypt mgr t1 iv1 k1 d1 m1, .encrypt mgr t2 iv2 k2 d2 m2]).1 = [.ok c1, .ok c2]) :
    ∃ s, s = ((Process.fresh created).run X O draw timeout
        [.encrypt mgr t1 iv1 k1 d1 m1, .encrypt mgr t2 iv2 k2 d2 m2]).2 ∧
      (∀ e ∈ s.live.cache, e.pubkey = k2 ∧ e.keys.2.2 = X.pub (draw 1)) ∧
      ∃ sec pk km, O.secret (draw 0) = .ok sec ∧ X.compress k1 = .ok pk ∧
        X.ecdh (draw 0) pk = .ok km ∧ ((sec, pk), km) ∈ s.shared := by
  refine ⟨_, rfl, ?_⟩
  have hr : (Process.fresh created).run X O draw timeout
      [.encrypt mgr t1 iv1 k1 d1 m1, .encrypt mgr t2 iv2 k2 d2 m2] =
      ([((Process.fresh created).encrypt X O draw timeout mgr t1 iv1 k1 d1 m1).1,
        (((Process.fresh created).encrypt X O draw timeout mgr t1 iv1 k1 d1 m1).2.encrypt X O draw
          timeout mgr t2 iv2 k2 d2 m2).1],
       (((Process.fresh created).encrypt X O draw timeout mgr t1 iv1 k1 d1 m1).2.encrypt X O draw
          timeout mgr t2 iv2 k2 d2 m2).2) := rfl
  rw [hr] at h ⊢
  simp only [List.cons.injEq, and_true] at h
  obtain ⟨ha, hb⟩ := h
  -- the first call draws key 0
  obtain ⟨g1, g2, g3⟩ := ephemKey_step hO (draw := draw) (timeout := timeout)
    (fresh_clean X O created) mgr k1 t1
  have hkeys : ∃ keys, ephemKeys X (draw 0) k1 = .ok keys := by
    unfold Process.encrypt at ha
    revert ha g1
    cases (Process.fresh created).ephemKey X O draw timeout mgr k1 t1 with
    | mk r s' =>
      intro ha g1
      cases r with
      | error e => cases ha
      | ok keys =>
        unfold LiveKeys.ephemKey at g1
        simp only [Process.fresh, LiveKeys.fresh, List.find?_nil] at g1
        cases he : ephemKeys X (draw 0) k1 with
        | error e => rw [he] at g1; cases g1
        | ok keys => exact ⟨keys, rfl⟩
  obtain ⟨keys, hkeys⟩ := hkeys
  obtain ⟨pk, sec, km, hp, hs, hd⟩ := ephemKeys_ok hO hkeys
  have hlive : (Process.ephemKey X O draw timeout (.fresh created) mgr k1 t1).2.live.cache =
      [⟨mgr, k1, keys⟩] ∧
      (Process.ephemKey X O draw timeout (.fresh created) mgr k1 t1).2.live.lastCleanup mgr ≤ t1 ∧
      (Process.ephemKey X O draw timeout (.fresh created) mgr k1 t1).2.live.drawn = 1 := by
    rw [g2]
    unfold LiveKeys.ephemKey
    simp only [Process.fresh, LiveKeys.fresh, List.find?_nil, hkeys]
    unfold LiveKeys.cleaned
    split <;> simp [cacheSize]
    omega
  have hkey := ephemKey_keys (draw := draw) (timeout := timeout) (fresh_clean X O created) (l := [])
    (by simp [latest, Process.fresh]) mgr k1 t1
  have hone : (Process.ephemKey X O draw timeout (.fresh created) mgr k1 t1).2.shared.map Prod.fst =
      [(sec, pk)] := by
    rw [hkey, if_neg (by simp [Process.fresh, LiveKeys.fresh]), hp]
    simp only [Process.fresh, LiveKeys.fresh, agreement, hs, List.filter_cons, hd, Except.isOk,
      Except.toBool, if_true]
    simp [latest, cacheSize]
  have hmem : ((sec, pk), km) ∈
      (Process.ephemKey X O draw timeout (.fresh created) mgr k1 t1).2.shared := by
    obtain ⟨e, he, h1⟩ := List.mem_map.mp (hone ▸ List.mem_singleton_self (sec, pk))
    have h2 := g3.shared e he
    simp only [h1, hd] at h2
    injection h2 with h2
    obtain ⟨e1, e2⟩ := e
    simp only at h1 h2
    rw [h1, ← h2] at he
    exact he
  rw [show ((Process.fresh created).encrypt X O draw timeout mgr t1 iv1 k1 d1 m1).2 =
    ((Process.fresh created).ephemKey X O draw timeout mgr k1 t1).2 from encrypt_state ..] at hb ⊢
  constructor
  · obtain ⟨ks, hc1, hc2⟩ := cleanup_partial X O draw timeout _ mgr t2 iv2 k2 d2 m2 c2 (by
      intro e he h
      rw [hlive.1] at he
      simp only [List.mem_singleton] at he
      subst he
      exact hk h.2) (by have := hlive.2.1; omega) hb
    rw [hc1]
    intro e he
    simp only [List.mem_singleton] at he
    subst he
    rw [hlive.2.2] at hc2
    exact ⟨rfl, hc2⟩
  · refine ⟨sec, pk, km, hs, hp, ?_, ?_⟩
    · rw [hO, hs]
      exact hd
    · rw [encrypt_state]
      exact ephemKey_keeps hmem hone mgr k2 t2

/-! The hypotheses can be met. -/

example : (((Process.fresh fun _ => 0).run toyX toyO (fun i => [UInt8.ofNat i + 1]) 3600
    [.encrypt 0 10 (List.replicate 16 9) ((toyX.pub [2]).drop 1) [1, 2] [],
     .encrypt 0 5000 (List.replicate 16 9) ((toyX.pub [3]).drop 1) [3] []]).1).map Except.isOk =
    [true, true] := by decide +kernel

end Verif.Props
