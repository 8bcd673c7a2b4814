import Verif.Lemmas.MadeCalls
import Verif.Lemmas.ToyMake
/-!
# Factories make messages (C96)
-/

set_option linter.unusedSimpArgs false

namespace Verif.Props

open Verif Spec

theorem calls_good : ∀ c ∈ makeable, okCall maxDepth c none [] = true := by decide +kernel

theorem methods_good : ∀ v : Variant, (match v.args [] with
    | .ok kw => okCall maxDepth v.cls none kw
    | .error _ => false) = true := by
  intro v; cases v <;> decide +kernel

/-- C96: whatever is drawn, every factory of messages, called without arguments, makes a message of its
class, with all the messages in it. -/
theorem factories_succeed (E : Env) (G : Getter) (keccak : Bytes → Bytes) (d : Draws) (c : Cls)
    (hw : World E keccak d) (hc : c ∈ makeable) :
    ∃ m, make E G keccak d c [] = .ok m ∧ m.cls = c := by
  obtain ⟨m, h, hg⟩ := makes_total (G := G) hw maxDepth [] c none [] (calls_good c hc)
  exact ⟨m, h, hg.1.cls⟩

/-- Other classes have none. -/
theorem no_other_factories (E : Env) (G : Getter) (keccak : Bytes → Bytes) (d : Draws) (c : Cls) (kw : Attrs)
    (hc : c ∉ makeable) : (make E G keccak d c kw).isOk = false := by
  unfold make
  generalize hn : maxDepth = n
  cases n with
  | zero => rfl
  | succ n =>
    unfold makeAt
    rw [if_neg (by rintro rfl; exact hc (by decide)), if_neg (by rintro rfl; exact hc (by decide))]
    have : c.factory = none := by
      cases c <;> first | rfl | exact absurd (by decide) hc
    rw [this]
    rfl

/-- C96: so does every class method of a factory. -/
theorem methods_succeed (E : Env) (G : Getter) (keccak : Bytes → Bytes) (d : Draws) (v : Variant)
    (hw : World E keccak d) : ∃ m, makeVariant E G keccak d v [] = .ok m ∧ m.cls = v.cls := by
  have h := methods_good v
  unfold makeVariant
  cases hv : v.args [] with
  | error e => rw [hv] at h; cases h
  | ok kw =>
    rw [hv] at h
    obtain ⟨m, h, hg⟩ := makes_total (G := G) hw maxDepth [] v.cls none kw h
    exact ⟨m, h, hg.1.cls⟩

private theorem fill_args {E : Env} {others : List PStr} {n : PStr} {v : Val} {kw : Attrs} (h : TaskArgs E kw)
    (hnd : (kw.map Prod.fst).Nodup) (hv : TaskArgs E [(n, v)]) :
    TaskArgs E (fillArg others n v kw) ∧ ((fillArg others n v kw).map Prod.fst).Nodup := by
  unfold fillArg
  split
  · exact ⟨h, hnd⟩
  · refine ⟨?_, setName_distinct hnd⟩
    intro k x hm
    rcases setName_mem hm with ⟨rfl, rfl⟩ | hm
    · exact hv _ _ List.mem_cons_self
    · exact h k x hm

theorem signedArgs_total {E : Env} {requestor provider : Option (Bytes × Bytes)}
    (hr : ∀ kp, requestor = some kp → UsablePair E kp) (hp : ∀ kp, provider = some kp → UsablePair E kp) :
    ∃ kw, signedArgs requestor provider [] = .ok kw ∧ TaskArgs E kw ∧ (kw.map Prod.fst).Nodup := by
  have one : ∀ n v, ((n = p!"requestor_public_key" ∧ KeyArg v) ∨ (n = p!"sign__privkey" ∧ PrivArg E v) ∨
      (n = p!"compute_task_def__deadline" ∧ ∃ i : Int, v = .int i ∧ i.natAbs < 2 ^ 65) ∨
      (n = p!"want_to_compute_task__provider_public_key" ∧ KeyArg v) ∨
      (n = p!"want_to_compute_task__sign__privkey" ∧ PrivArg E v) ∨
      (n = p!"want_to_compute_task__task_header__requestor_public_key" ∧ KeyArg v) ∨
      (n = p!"want_to_compute_task__task_header__sign__privkey" ∧ PrivArg E v)) → TaskArgs E [(n, v)] := by
    intro n v h k x hm
    simp only [List.mem_singleton, Prod.mk.injEq] at hm
    obtain ⟨rfl, rfl⟩ := hm
    exact h
  have first : ∃ kw, requestorArgs requestor [] = .ok kw ∧ TaskArgs E kw ∧ (kw.map Prod.fst).Nodup := by
    unfold requestorArgs
    cases requestor with
    | none => exact ⟨[], rfl, (fun _ _ hm => nomatch hm), List.nodup_nil⟩
    | some kp =>
      obtain ⟨hs, hl⟩ := hr kp rfl
      obtain ⟨priv, pub⟩ := kp
      dsimp only
      rw [encodeHex_key hl]
      dsimp only
      have h0 : TaskArgs E [] := fun _ _ hm => nomatch hm
      have h1 := fill_args (others := [p!"requestor_public_key"]) h0 List.nodup_nil
        (one _ (.str (hexlify pub)) (.inl ⟨rfl, pub, hl, rfl⟩))
      have h2 := fill_args (others := [p!"sign__privkey"]) h1.1 h1.2
        (one _ (.bytes priv) (.inr (.inl ⟨rfl, priv, hs, rfl⟩)))
      have h3 := fill_args (others := [p!"want_to_compute_task__task_header",
          p!"want_to_compute_task__task_header__requestor_public_key"]) h2.1 h2.2
        (one _ (.str (hexlify pub)) (.inr (.inr (.inr (.inr (.inr (.inl ⟨rfl, pub, hl, rfl⟩)))))))
      have h4 := fill_args (others := [p!"want_to_compute_task__task_header",
          p!"want_to_compute_task__task_header__sign__privkey"]) h3.1 h3.2
        (one _ (.bytes priv) (.inr (.inr (.inr (.inr (.inr (.inr ⟨rfl, priv, hs, rfl⟩)))))))
      exact ⟨_, rfl, h4.1, h4.2⟩
  obtain ⟨kw, h1, h2, h3⟩ := first
  unfold signedArgs
  rw [h1]
  dsimp only
  unfold providerArgs
  cases provider with
  | none => exact ⟨kw, rfl, h2, h3⟩
  | some kp =>
    obtain ⟨hs, hl⟩ := hp kp rfl
    obtain ⟨priv, pub⟩ := kp
    dsimp only
    have h6 := fun (kw : Attrs) (h2 : TaskArgs E kw) h3 => fill_args (others := [p!"want_to_compute_task",
        p!"want_to_compute_task__sign__privkey"]) h2 h3
      (one p!"want_to_compute_task__sign__privkey" (.bytes priv)
        (.inr (.inr (.inr (.inr (.inl ⟨rfl, priv, hs, rfl⟩))))))
    by_cases hg : ([p!"want_to_compute_task", p!"want_to_compute_task__provider_public_key"].any
        fun n => (lookupName n kw).isSome) = true
    · rw [if_pos hg]
      dsimp only
      have e : fillArg [p!"want_to_compute_task", p!"want_to_compute_task__provider_public_key"]
          p!"want_to_compute_task__provider_public_key" (.str []) kw = kw := by
        unfold fillArg
        rw [if_pos hg]
      rw [e]
      exact ⟨_, rfl, h6 kw h2 h3⟩
    · rw [if_neg hg, encodeHex_key hl]
      dsimp only
      have h5 := fill_args (others := [p!"want_to_compute_task", p!"want_to_compute_task__provider_public_key"]) h2 h3
        (one p!"want_to_compute_task__provider_public_key" (.str (hexlify pub))
          (.inr (.inr (.inr (.inl ⟨rfl, pub, hl, rfl⟩)))))
      exact ⟨_, rfl, h6 _ h5.1 h5.2⟩

/-- C96: so does `with_signed_nested_messages`, with any usable key pairs or without. -/
theorem signed_task_succeeds (E : Env) (G : Getter) (keccak : Bytes → Bytes) (d : TaskDraw)
    (requestor provider : Option (Bytes × Bytes)) (hkec : ∀ b, (keccak b).length = 32) (hd : TaskInRange d)
    (hs : Signs E d.eth.1) (hr : ∀ kp, requestor = some kp → UsablePair E kp)
    (hp : ∀ kp, provider = some kp → UsablePair E kp) :
    ∃ m, signedTask E G keccak d requestor provider [] = .ok m ∧ m.cls = .TaskToCompute := by
  obtain ⟨kw, h1, h2, h3⟩ := signedArgs_total (E := E) hr hp
  obtain ⟨m, h, hf⟩ := task_total (G := G) hkec hd hs h2 h3
  refine ⟨m, ?_, hf.cls⟩
  unfold signedTask
  rw [h1]
  exact h

/-- C96: and `past_deadline`. -/
theorem past_deadline_succeeds (E : Env) (G : Getter) (keccak : Bytes → Bytes) (d : TaskDraw) (now : Int)
    (hkec : ∀ b, (keccak b).length = 32) (hd : TaskInRange d) (hs : Signs E d.eth.1) (hn : Clock now) :
    ∃ m, pastDeadlineTask E G keccak d now [] = .ok m ∧ m.cls = .TaskToCompute := by
  unfold Clock at hn
  obtain ⟨m, h, hf⟩ := task_total (G := G) (kw := [(p!"compute_task_def__deadline", .int (now - 86400))]) hkec hd hs
    (by
      intro k v hm
      simp only [List.mem_singleton, Prod.mk.injEq] at hm
      obtain ⟨rfl, rfl⟩ := hm
      exact .inr (.inr (.inl ⟨rfl, _, rfl, by omega⟩))) (by simp)
  exact ⟨m, h, hf.cls⟩

/-- C96, of the peers in `Hello` and `Peers`: made for every port but the last one. -/
theorem peer_succeeds_partial (E : Env) (address : PStr) (port : Int) (name : PStr)
    (ha : E.ipOk (.str address) = true) (hp : 1 ≤ port ∧ port ≤ 65534) (hn : name.length < 2 ^ 32) :
    ∃ v, peerFactory E address port name [] = .ok v := by
  obtain ⟨node, h1, ⟨fs, rfl, _⟩, _⟩ := node_factory (E := E) hn
  have hx : peerFactory E address port name [] = mkFDict E .peer (.dict [(.str p!"address", .str address),
      (.str p!"port", .int port), (.str p!"node", .cont .node fs)]) := by
    unfold peerFactory
    simp only [bind, Except.bind]
    rw [given_none rfl]
    dsimp only
    rw [given_none rfl]
    dsimp only
    rw [given_none rfl, show subArgs p!"node" [] = [] from rfl, h1]
    rfl
  have a1 := (itemOk_iff E .peer p!"address" (.str address)).mpr
    ⟨fun _ => ha, fun e => absurd e (by decide), fun e => absurd e (by decide)⟩
  have a2 := (itemOk_iff E .peer p!"port" (.int port)).mpr
    ⟨fun e => absurd e (by decide), fun _ => ⟨port, rfl, by omega⟩, fun e => absurd e (by decide)⟩
  have a3 := (itemOk_iff E .peer p!"node" (.cont .node fs)).mpr
    ⟨fun e => absurd e (by decide), fun e => absurd e (by decide), fun _ => ⟨fs, rfl⟩⟩
  rw [hx]
  unfold mkFDict
  have e1 : fdArg (.dict [(.str p!"address", .str address), (.str p!"port", .int port),
      (.str p!"node", .cont .node fs)]) = .ok [(.str p!"address", .str address), (.str p!"port", .int port),
      (.str p!"node", .cont .node fs)] := rfl
  rw [e1]
  dsimp only
  unfold fdBuild
  have e2 : fdSetAll E (fdConv E .peer) .peer [] [(.str p!"address", .str address), (.str p!"port", .int port),
      (.str p!"node", .cont .node fs)] = .ok [(p!"address", .str address), (p!"port", .int port),
      (p!"node", .cont .node fs)] := by
    have s1 : ∀ items, fdSetV E (fdConv E .peer) .peer items (.str p!"address") (.str address) =
        .ok (setName p!"address" (.str address) items) := by
      intro items
      unfold fdSetV fdSet
      simp only [fdConv, peerConv, show (p!"address" = p!"node") = False from by simp, false_and, if_false, a1]
      rfl
    have s2 : ∀ items, fdSetV E (fdConv E .peer) .peer items (.str p!"port") (.int port) =
        .ok (setName p!"port" (.int port) items) := by
      intro items
      unfold fdSetV fdSet
      simp only [fdConv, peerConv, show (p!"port" = p!"node") = False from by simp, false_and, if_false, a2]
      rfl
    have s3 : ∀ items, fdSetV E (fdConv E .peer) .peer items (.str p!"node") (.cont .node fs) =
        .ok (setName p!"node" (.cont .node fs) items) := by
      intro items
      unfold fdSetV fdSet
      simp only [fdConv, peerConv, show ((Val.cont .node fs).asDict.isSome = true) = False from by simp [Val.asDict],
        and_false, if_false, a3]
      rfl
    simp only [fdSetAll, s1, s2, s3]
    rfl
  rw [e2]
  exact ⟨_, rfl⟩

/-- C96 fails for the last port, which the factory also draws (`max=2**16-1`). -/
theorem peer_succeeds_refuted : ¬ ∀ (E : Env) (address : PStr) (port : Int) (name : PStr),
    E.ipOk (.str address) = true → 1 ≤ port ∧ port ≤ 2 ^ 16 - 1 → name.length < 2 ^ 32 →
    ∃ v, peerFactory E address port name [] = .ok v := by
  intro h
  obtain ⟨v, hv⟩ := h toyEnv p!"10.0.0.1" 65535 p!"Ada" rfl (by decide) (by decide)
  have : (peerFactory toyEnv p!"10.0.0.1" 65535 p!"Ada" []).isOk = false := by decide +kernel
  rw [hv] at this
  cases this

/-! ### Draws and keys that meet the hypotheses -/

private def fairHeader : HeaderDraw := { toyTaskDraws.offer.header with
  mask := List.replicate 32 0, maxPrice := 10, budget := 10 }

private def fairTask : TaskDraw where
  key := toyVk 8
  eth := (toySk 6, toyVk 6)
  offer := { key := toyVk 10, now := 1500000000, header := fairHeader }
  definition := { taskId := List.replicate 36 'a', subtaskId := List.replicate 36 'b', resource := List.replicate 36 'c', now := 1500000000 }
  uuid1 := 1
  uuid2 := 2
  package := List.replicate 40 '0'
  size := 2000000
  price := 3000000
  now := 1500000000

private def fairEnv : Env := { toyEnv with sign := fun k h => .ok ((k ++ h ++ List.replicate 65 0).take 65) }

private def fairDraws : Draws := { toyDraws with task := fun _ => fairTask }

private theorem fair_signs (k : Bytes) : Signs fairEnv k := fun h =>
  ⟨_, rfl, by simp only [List.length_take, List.length_append, List.length_replicate]; omega⟩

private theorem fair_clock : Clock 1500000000 := by unfold Clock; decide

private theorem fair_task : TaskInRange fairTask where
  key := by decide
  eth := by decide
  offer := { key := by decide, now := fair_clock, header :=
    { key := by decide, mask := by decide, now := fair_clock, nodeName := by decide, timeout := by decide
      version := by decide, memory := by decide, maxPrice := by decide, budget := by decide, count := by decide } }
  definition := { taskId := by decide, subtaskId := by decide, resource := by decide, now := fair_clock }
  package := by decide
  size := by decide
  price := by decide
  now := fair_clock

example : World fairEnv (fun b => (b ++ List.replicate 32 0).take 32) fairDraws where
  hash b := by simp
  version := by decide
  draws := {
    text := fun _ => (by decide : (p!"some text").length < 2 ^ 32)
    num := fun _ => (by decide : (42 : Int).natAbs < 2 ^ 64)
    bytes := fun _ => (by decide : (toyVk 3).length = 64)
    member := toyDraws_members
    task := fun _ => fair_task
    now := fun _ => fair_clock }
  signs _ := fair_signs _

example : UsablePair fairEnv (toySk 7, toyVk 7) := ⟨fair_signs _, by decide⟩

example : makeable.length = 33 ∧ makeable.Nodup := by decide

end Verif.Props
