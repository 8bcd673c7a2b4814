import Verif.Lemmas.WritesSlots
import Verif.Lemmas.Toy
/-!
# C109: what is sent for a message

`Spec.Accept` and `Spec.Meaning` say what the receiver makes of a frame; this is the sender's side: which
bytes a message becomes, as a relation between the fields and the bytes that does not follow the code.
-/

set_option linter.unusedSimpArgs false

namespace Verif.Props

open Verif Spec

/-- C109: how values are written: the shortest heads, definite lengths, big integers as tagged byte
strings without leading zeros, 64-bit floats. -/
theorem written_bytes (v : Val) (b : Bytes) : dumps v = .ok b ↔ Encoded v b := encoded_iff

/-- C109: the payload of a message is the list of its fields, in the order of its attributes, each
as the catalogue says for its kind. -/
theorem written_payload (m : Msg) (payload : Bytes) :
    (∃ s, m.slots = .ok s ∧ dumps s = .ok payload) ↔ PayloadOf m payload := by
  constructor
  · rintro ⟨s, hs, hd⟩
    obtain ⟨l, rfl, hl⟩ := slots_sent.mp hs
    exact ⟨l, hl, encoded_iff.mp hd⟩
  · rintro ⟨l, hl, he⟩
    exact ⟨_, slots_sent.mpr ⟨l, rfl, hl⟩, encoded_iff.mpr he⟩

theorem digest_written {E : Env} {m : Msg} {payload d : Bytes} :
    shortHashOf E m payload = .ok d ↔ DigestOf E m payload d := by
  unfold shortHashOf hashInput DigestOf
  constructor
  · intro h
    cases hd : dumps (.list [m.ty, m.ts]) with
    | error _ => rw [hd] at h; cases h
    | ok hd' =>
      rw [hd] at h
      dsimp only at h
      by_cases hc : m.cls = .Hello
      · rw [if_pos hc] at h
        split at h
        · rename_i v hv
          injection h with h
          exact ⟨hd', _, encoded_iff.mp hd, .hello hc hv, h.symm⟩
        · cases h
      · rw [if_neg hc] at h
        injection h with h
        exact ⟨hd', [], encoded_iff.mp hd, .other hc, by rw [List.append_nil]; exact h.symm⟩
  · rintro ⟨hd, version, h1, h2, rfl⟩
    rw [encoded_iff.mpr h1]
    dsimp only
    cases h2 with
    | hello hc hv => rw [if_pos hc, hv]; rfl
    | other hc => rw [if_neg hc, List.append_nil]

/-- C109: what is signed for a message: the SHA-1 of type, time and payload, followed by the version if it
is a `Hello`. -/
theorem written_digest (E : Env) (m : Msg) (digest : Bytes) :
    shortHash E m = .ok digest ↔ ∃ payload, PayloadOf m payload ∧ DigestOf E m payload digest := by
  unfold shortHash
  constructor
  · intro h
    cases hs : m.slots with
    | error _ => rw [hs] at h; cases h
    | ok s =>
      rw [hs] at h
      dsimp only at h
      cases hd : dumps s with
      | error _ => rw [hd] at h; cases h
      | ok p =>
        rw [hd] at h
        exact ⟨p, (written_payload m p).mp ⟨s, hs, hd⟩, digest_written.mp h⟩
  · rintro ⟨p, hp, hd⟩
    obtain ⟨s, h1, h2⟩ := (written_payload m p).mpr hp
    rw [h1]
    dsimp only
    rw [h2]
    exact digest_written.mpr hd

theorem key_given {k : Option Bytes} {x : Bytes} : givenKey k = some x ↔ k = some x ∧ x ≠ [] := by
  rcases k with _ | (_ | ⟨a, as⟩)
  · simp [givenKey]
  · simp only [givenKey, Option.some.injEq, reduceCtorEq, false_iff, not_and]
    rintro rfl h; exact h rfl
  · simp only [givenKey, Option.some.injEq]
    constructor
    · rintro rfl; exact ⟨rfl, by simp⟩
    · exact fun h => h.1

theorem key_absent {k : Option Bytes} : givenKey k = none ↔ NoKey k := by
  unfold NoKey
  rcases k with _ | (_ | ⟨a, as⟩) <;> simp [givenKey]

private theorem header_iff {n : Nat} {ts : Val} {b : Bool} {hd : Bytes} (hn : n < 2 ^ 16) :
    packHeader n ts (.bool b) = .ok hd ↔ ∃ number time, number.length = 2 ∧ bigEndian number = n ∧
      time.length = 8 ∧ TimeOf ts (bigEndian time) ∧ hd = number ++ time ++ [if b then 1 else 0] := by
  have time : ∀ {t : Int}, ts.structInt = some t → ∀ {k : Nat}, TimeOf ts k ↔ t = k := by
    intro t ht k
    constructor
    · intro h
      cases h with
      | int => simp only [Val.structInt, Option.some.injEq] at ht; exact ht.symm
      | bool b => cases b <;> simp_all [Val.structInt]
    · rintro rfl
      cases ts with
      | int i => simp only [Val.structInt, Option.some.injEq] at ht; subst ht; exact .int k
      | bool b =>
        have : k = if b then 1 else 0 := by cases b <;> simp_all [Val.structInt] <;> omega
        subst this
        exact .bool b
      | _ => cases ht
  unfold packHeader
  cases hs : ts.structInt with
  | none =>
    refine ⟨fun h => (by cases h), ?_⟩
    rintro ⟨_, _, _, _, _, h, _⟩
    generalize bigEndian _ = k at h
    cases h <;> cases hs
  | some t =>
    dsimp only
    rw [if_neg (by omega)]
    by_cases hr : t < 0 ∨ 2 ^ 64 ≤ t
    · rw [if_pos hr]
      refine ⟨fun h => (by cases h), ?_⟩
      rintro ⟨x, y, _, _, hy, h, _⟩
      have h1 := (time hs).mp h
      have h2 : bigEndian y < 256 ^ y.length := by rw [bigEndian_eq]; exact ofBE_lt y
      rw [hy] at h2
      omega
    · rw [if_neg hr]
      have htn : (t.toNat : Int) = t := by omega
      constructor
      · intro h
        injection h with h
        refine ⟨toBE 2 n, toBE 8 t.toNat, toBE_length _ _, ?_, toBE_length _ _, ?_, h.symm⟩
        · rw [bigEndian_eq]; exact ofBE_toBE (by omega)
        · rw [bigEndian_eq, ofBE_toBE (by omega)]
          exact (time hs).mpr htn.symm
      · rintro ⟨x, y, h1, h2, h3, h4, rfl⟩
        have h5 := (time hs).mp h4
        have e1 : x = toBE 2 n := by rw [← h2, bigEndian_eq, ← h1, toBE_ofBE]
        have e2 : y = toBE 8 t.toNat := by
          rw [h5, Int.toNat_natCast, bigEndian_eq, ← h3, toBE_ofBE]
        rw [e1, e2]
        rfl

private theorem trailer_iff {v : PStr} {trailer : Bytes} : trailer = packPascal (asciiReplace v) ↔
    trailer.length = 32 ∧ ∃ shown zeros, trailer = UInt8.ofNat shown.length :: (shown ++ zeros) ∧
      shown = (ascii v).take 31 ∧ ∀ z ∈ zeros, z = 0 := by
  have ha : asciiReplace v = ascii v := rfl
  unfold packPascal
  rw [ha]
  constructor
  · rintro rfl
    refine ⟨by simp; omega, (ascii v).take 31, List.replicate (31 - (ascii v).length) 0, ?_, rfl, fun z hz => (List.mem_replicate.mp hz).2⟩
    rw [List.length_take, Nat.min_comm]
  · rintro ⟨hl, shown, zeros, rfl, rfl, hz⟩
    have : zeros = List.replicate (31 - (ascii v).length) 0 := by
      have := List.eq_replicate_of_mem hz
      rw [this]
      congr 1
      simp only [List.length_cons, List.length_append, List.length_take] at hl
      omega
    rw [this, List.length_take, Nat.min_comm]

theorem entry_tables (c : Cls) : ∀ e ∈ catalogue, e.cls = c → c.typeId = e.number ∧ c.sign = e.signed ∧
    c.encrypt = e.encrypted := by
  intro e he h
  subst h
  have : ∀ e ∈ catalogue, e.cls.typeId = e.number ∧ e.cls.sign = e.signed ∧ e.cls.encrypt = e.encrypted := by
    decide +kernel
  exact this e he

theorem base_writes {E : Env} {encrypt : Bytes → Bytes → Res Bytes} {m m' : Msg} {priv pub : Option Bytes}
    {b : Bytes} {e : Entry} (he : e ∈ catalogue) (hc : e.cls = m.cls) :
    serializeBase E m priv ((givenKey pub).map encrypt) = (.ok b, m') ↔
    ∃ number time flag sig payload body,
      number.length = 2 ∧ bigEndian number = e.number ∧ time.length = 8 ∧ TimeOf m.ts (bigEndian time) ∧
      PayloadOf m payload ∧ SignatureOf E e m priv payload sig ∧ Enciphered e encrypt pub payload flag body ∧
      b = number ++ time ++ [if flag then 1 else 0] ++ sig ++ body ∧
      m' = { m with enc := .bool flag, sig := .bytes sig } := by
  obtain ⟨t1, t2, t3⟩ := entry_tables m.cls e he hc
  have hlt : e.number < 2 ^ 16 := by rw [← t1]; exact typeId_lt _
  constructor
  · intro h
    obtain ⟨d⟩ := serializeBase_ok h
    have hhd := d.hhd
    rw [t1] at hhd
    obtain ⟨number, time, a1, a2, a3, a4, a5⟩ := (header_iff hlt).mp hhd
    refine ⟨number, time, _, d.sg, d.payload, d.body, a1, a2, a3, a4,
      (written_payload m d.payload).mp ⟨_, d.hslots, d.hpayload⟩, ?_, ?_, ?_, d.hm⟩
    · rcases d.hsig with ⟨h1, h2⟩ | ⟨h1, ⟨h2, key, x, h3, h4, h5⟩ | ⟨h2, h3⟩⟩
      · exact .kept h1 (h2.imp key_absent.mp id)
      · obtain ⟨k1, k2⟩ := key_given.mp h3
        exact .made h1 (by rw [← t2]; exact h2) k1 k2 (digest_written.mp h4) h5
      · rw [h3]
        exact .blank h1 (h2.imp (by rw [t2]; exact id) key_absent.mp)
    · rcases d.hbody with ⟨h1, g, h2, h3⟩ | ⟨h1, h2⟩
      · rw [Option.map_eq_some_iff] at h2
        obtain ⟨key, h4, rfl⟩ := h2
        obtain ⟨k1, k2⟩ := key_given.mp h4
        have : (m.cls.encrypt && ((givenKey pub).map encrypt).isSome) = true := by rw [h1, h4]; rfl
        rw [this]
        exact .yes (by rw [← t3]; exact h1) k1 k2 h3
      · rw [h1, h2]
        refine .no ?_
        rw [Bool.and_eq_false_iff] at h1
        rw [← t3]
        refine h1.imp id fun h => key_absent.mp ?_
        cases hg : givenKey pub with
        | none => rfl
        | some _ => rw [hg] at h; cases h
    · exact d.hb.trans (by rw [a5])
  · rintro ⟨number, time, flag, sig, payload, body, a1, a2, a3, a4, a5, a6, a7, rfl, rfl⟩
    obtain ⟨s, hs, hd⟩ := (written_payload m payload).mpr a5
    have hflag : (m.cls.encrypt && ((givenKey pub).map encrypt).isSome) = flag := by
      rw [t3]
      cases a7 with
      | yes h1 h2 h3 _ => rw [h1, key_given.mpr ⟨h2, h3⟩]; rfl
      | no h =>
        rcases h with h | h
        · rw [h]; rfl
        · rw [key_absent.mpr h]; simp
    have hhd := (header_iff (b := flag) hlt).mpr ⟨number, time, a1, a2, a3, a4, rfl⟩
    rw [← t1] at hhd
    have hsign : ((givenKey priv).isSome && m.sig.truthy) = false ∧
        signFor E { m with enc := .bool flag } payload priv =
          .ok { m with enc := .bool flag, sig := .bytes sig } := by
      unfold signFor
      cases a6 with
      | made h1 h2 h3 h4 h5 h6 =>
        refine ⟨by rw [h1]; simp [Val.truthy], ?_⟩
        dsimp only
        rw [if_pos h1, if_pos (by rw [t2]; exact h2), key_given.mpr ⟨h3, h4⟩]
        dsimp only
        rw [(shortHashOf_congr E m { m with enc := .bool flag } payload rfl rfl rfl rfl).trans (digest_written.mpr h5)]
        dsimp only
        unfold Env.ecdsaSign
        rw [h6]
      | blank h1 h2 =>
        refine ⟨by rw [h1]; simp [Val.truthy], ?_⟩
        dsimp only
        rw [if_pos h1]
        have : (if m.cls.sign = true then givenKey priv else none) = none := by
          rcases h2 with h2 | h2
          · rw [if_neg (by rw [t2, h2]; decide)]
          · rw [key_absent.mpr h2]; simp
        rw [this]
        rfl
      | kept h1 h2 =>
        constructor
        · rcases h2 with h2 | rfl
          · rw [key_absent.mpr h2]; rfl
          · rw [h1]; simp [Val.truthy]
        · dsimp only
          rw [if_neg (by rw [h1]; simp), h1]
    unfold serializeBase
    rw [if_neg (by rw [hsign.1]; decide)]
    dsimp only
    rw [hflag]
    have hs' : Msg.slots { m with enc := .bool flag } = .ok s := hs
    rw [hs']
    dsimp only
    rw [hd]
    dsimp only
    rw [hsign.2]
    dsimp only
    have join : ∀ x, joinFrame { m with enc := .bool flag, sig := .bytes sig } x =
        .ok (number ++ time ++ [if flag then 1 else 0] ++ sig ++ x) := by
      intro x
      unfold joinFrame
      dsimp only
      rw [hhd]
    cases a7 with
    | yes h1 h2 h3 h4 =>
      rw [if_pos (by rfl), key_given.mpr ⟨h2, h3⟩]
      dsimp only [Option.map]
      rw [h4]
      dsimp only
      rw [join]
    | no h =>
      rw [if_neg (by simp [Val.truthy])]
      dsimp only
      rw [join]

/-- C109: `dump` gives a frame exactly if the message can be written, and these are its bytes: two for the
type, eight for the time, one for the flag, the signature (made, blank or kept), the payload, enciphered if
the class is and there is a key, and the version of a `Hello`.  Afterwards the message has the flag and the
signature of the frame and is otherwise as before. -/
theorem dump_writes (E : Env) (encrypt : Bytes → Bytes → Res Bytes) (m m' : Msg) (priv pub : Option Bytes)
    (data : Bytes) : dump E encrypt m priv pub = (.ok data, m') ↔ WritesFrame E encrypt m priv pub data m' := by
  unfold dump serialize WritesFrame
  obtain ⟨e, he, hc⟩ := listed_cls m.cls
  by_cases hh : m.cls = .Hello
  · rw [if_pos hh]
    constructor
    · intro h
      cases hb : serializeBase E m priv ((givenKey pub).map encrypt) with
      | mk r m1 =>
        rw [hb] at h
        cases r with
        | error _ => simp at h
        | ok b =>
          obtain ⟨number, time, flag, sig, payload, body, a1, a2, a3, a4, a5, a6, a7, rfl, rfl⟩ :=
            (base_writes he hc).mp hb
          dsimp only at h
          split at h
          · rename_i v hv
            simp only [Prod.mk.injEq, Except.ok.injEq] at h
            obtain ⟨rfl, rfl⟩ := h
            exact ⟨e, he, hc, number, time, flag, sig, payload, body, _, a1, a2, a3, a4, a5, a6, a7,
              ⟨_, .hello hh hv, fun _ => trailer_iff.mp rfl, fun h => absurd hh h⟩, rfl, rfl⟩
          · simp at h
    · rintro ⟨e, he, hc, number, time, flag, sig, payload, body, trailer, a1, a2, a3, a4, a5, a6, a7,
        ⟨version, hv, ht, _⟩, rfl, rfl⟩
      have hb := (base_writes (E := E) (encrypt := encrypt) (m := m) (priv := priv) (pub := pub) he hc).mpr
        ⟨number, time, flag, sig, payload, body, a1, a2, a3, a4, a5, a6, a7, rfl, rfl⟩
      rw [hb]
      dsimp only
      cases hv with
      | hello _ hv =>
        rw [hv]
        dsimp only
        rw [trailer_iff.mpr (ht hh)]
      | other h => exact absurd hh h
  · rw [if_neg hh]
    constructor
    · intro h
      obtain ⟨number, time, flag, sig, payload, body, a1, a2, a3, a4, a5, a6, a7, rfl, rfl⟩ :=
        (base_writes he hc).mp h
      exact ⟨e, he, hc, number, time, flag, sig, payload, body, [], a1, a2, a3, a4, a5, a6, a7,
        ⟨[], .other hh, fun h => absurd h hh, fun _ => rfl⟩, by rw [List.append_nil], rfl⟩
    · rintro ⟨e, he, hc, number, time, flag, sig, payload, body, trailer, a1, a2, a3, a4, a5, a6, a7,
        ⟨version, _, _, ht⟩, rfl, rfl⟩
      rw [ht hh]
      exact (base_writes he hc).mpr ⟨number, time, flag, sig, payload, body, a1, a2, a3, a4, a5, a6, a7,
        by rw [List.append_nil], rfl⟩

/-- C109: so a message, the keys and the outcome of signing and encrypting determine the frame. -/
theorem written_once (E : Env) (encrypt : Bytes → Bytes → Res Bytes) (m m₁ m₂ : Msg) (priv pub : Option Bytes)
    (data₁ data₂ : Bytes) (h₁ : WritesFrame E encrypt m priv pub data₁ m₁)
    (h₂ : WritesFrame E encrypt m priv pub data₂ m₂) : data₁ = data₂ ∧ m₁ = m₂ := by
  have := ((dump_writes E encrypt m m₁ priv pub data₁).mpr h₁).symm.trans
    ((dump_writes E encrypt m m₂ priv pub data₂).mpr h₂)
  simp only [Prod.mk.injEq, Except.ok.injEq] at this
  exact this

/-! ### Cases -/

/-- A `RemoveTask` is sent unsigned and in the clear without keys; these are its 87 bytes. -/
example : WritesFrame toyEnv (fun _ _ => .error .decryptionError)
    ⟨.RemoveTask, .int 1007, .int 1500000000, .none, .none, [(p!"task_id", .int 7)]⟩ none (some [])
    ([0x03, 0xef] ++ [0, 0, 0, 0, 0x59, 0x68, 0x2f, 0] ++ [0] ++ List.replicate 65 0 ++
      [0x81, 0x82, 0x67, 0x74, 0x61, 0x73, 0x6b, 0x5f, 0x69, 0x64, 0x07])
    ⟨.RemoveTask, .int 1007, .int 1500000000, .bool false, .bytes (List.replicate 65 0), [(p!"task_id", .int 7)]⟩ :=
  (dump_writes _ _ _ _ _ _ _).mp (by decide +kernel)

/-- The reason of a `Disconnect` is sent as text. -/
example : SentField .Disconnect p!"reason" (.choice []) (.enum .disconnectReason p!"refresh") (.str p!"refresh") :=
  .member (by simp [Special])

/-- A nested message is sent with its header and signature, behind a flag. -/
example : SentField .RejectReportComputedTask p!"attached_task_to_compute" (.message .TaskToCompute true false)
    (.msg .TaskToCompute (.int 2002) (.int 1) (.bool false) .none [])
    (.tuple [.bool false, .tuple [.tuple [.int 2002, .int 1, .bool false], .none, .list []]]) :=
  .single (.mk .nil)

/-- 500 is written with two bytes and 5 is not written with one after the initial byte, though it might be read so. -/
example : Encoded (.int 500) [0x19, 0x01, 0xf4] ∧ ¬ Encoded (.int 5) [0x18, 0x05] ∧ Item [0x18, 0x05] (.int 5) := by
  refine ⟨(written_bytes _ _).mp (by decide), fun h => ?_, ?_⟩
  · have := (written_bytes _ _).mpr h
    exact absurd this (by decide)
  · exact .uint (Head.long (k := 0) (x := [5]) (by decide) rfl)

/-- An empty statistic is described as `None`. -/
example : Described (.cont .cpuStats [(p!"cpu_usage", .dict [])]) (.dict [(.str p!"cpu_usage", .none)]) :=
  .mk [(p!"cpu_usage", .dict [], .none)] (by
    intro m hm
    rw [List.mem_singleton.mp hm]
    exact .empty (.inr rfl) rfl)

end Verif.Props
