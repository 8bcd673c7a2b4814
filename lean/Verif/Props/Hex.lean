import Verif.Lemmas.Uuid
import Verif.Spec.Tasks
import Verif.Spec.Promissory
import Verif.Lemmas.Frame
import Verif.Spec.Frame
/-!
# C44, C45, C46: seeded ids, UUIDs as 32 bytes, hexadecimal helpers
-/

set_option linter.unusedSimpArgs false

namespace Verif.Props

open Verif Spec

/-! ### C46 -/

/-- `decode_hex` of text (and of ASCII bytes) returns the bytes it denotes, digits in
either case, and raises a `ValueError` (`binascii.Error` included) for any other text. -/
theorem decode_hex_decision (s : PStr) (b : Bytes) :
    (decodeHex (.str s) = .ok b ↔ HexText s b) ∧
    ((¬ ∃ b, HexText s b) → ∃ e, decodeHex (.str s) = .error e ∧ e.isValueError = true) := by
  have ha : ∀ b, HexText s b → decodeHex (.str s) = unhexlify s := by
    intro b hb
    simp only [decodeHex]
    rw [if_pos (hexText_ascii hb)]
  constructor
  · constructor
    · intro h
      simp only [decodeHex] at h
      split at h
      · exact (unhexlify_iff s b).mp h
      · cases h
    · intro h; rw [ha b h]; exact (unhexlify_iff s b).mpr h
  · intro hn
    simp only [decodeHex]
    split
    · cases hu : unhexlify s with
      | ok b => exact absurd ⟨b, (unhexlify_iff s b).mp hu⟩ hn
      | error e => exact ⟨e, rfl, by rw [unhexlify_error hu]; rfl⟩
    · exact ⟨_, rfl, rfl⟩

/-- Text is decodable exactly if it has even length and only hexadecimal digits. -/
theorem hex_text_shape (s : PStr) :
    (∃ b, HexText s b) ↔ s.length % 2 = 0 ∧ ∀ c ∈ s, c ∈ hexLower ∨ c ∈ hexUpper := by
  constructor
  · rintro ⟨b, h⟩
    refine ⟨by have := hexText_length h; omega, ?_⟩
    induction h with
    | nil => simp
    | cons ha hc _ _ ih =>
      intro c hm
      have nib : ∀ {c n}, Nibble c n → c ∈ hexLower ∨ c ∈ hexUpper := by
        intro c n h
        exact h.imp List.mem_of_getElem? List.mem_of_getElem?
      simp only [List.mem_cons] at hm
      rcases hm with rfl | rfl | hm
      · exact nib ha
      · exact nib hc
      · exact ih c hm
  · have key : ∀ k (s : PStr), s.length = 2 * k → (∀ c ∈ s, c ∈ hexLower ∨ c ∈ hexUpper) →
        ∃ b, HexText s b := by
      intro k
      induction k with
      | zero => intro s hl _; simp at hl; subst hl; exact ⟨[], .nil⟩
      | succ k ih =>
        intro s hl hm
        match s, hl with
        | a :: c :: rest, hl =>
          obtain ⟨b, hb⟩ := ih rest (by simp at hl; omega) fun x hx => hm x (by simp [hx])
          have nib : ∀ c, c ∈ hexLower ∨ c ∈ hexUpper → ∃ n, Nibble c n := by
            rintro c (h | h)
            · obtain ⟨n, hn⟩ := List.mem_iff_getElem?.mp h; exact ⟨n, Or.inl hn⟩
            · obtain ⟨n, hn⟩ := List.mem_iff_getElem?.mp h; exact ⟨n, Or.inr hn⟩
          obtain ⟨hi, h1⟩ := nib a (hm a (by simp))
          obtain ⟨lo, h2⟩ := nib c (hm c (by simp))
          have l1 := nibble_lt h1
          have l2 := nibble_lt h2
          exact ⟨UInt8.ofNat (16 * hi + lo) :: b, .cons h1 h2 (toNat_ofNat_lt (by omega)) hb⟩
        | [_], hl => simp at hl; omega
        | [], hl => simp at hl
    rintro ⟨hl, hm⟩
    exact key (s.length / 2) s (by omega) hm

/-- `encode_hex` of a non-empty byte string is lower-case text, two digits per byte,
which `decode_hex` maps back to the byte string; the same for text and its UTF-8 bytes.
Missing for the full claim: the empty byte string and the stripping of a `0x` prefix,
which are refuted below. -/
theorem encode_hex_partial (b : Bytes) (hb : b ≠ []) :
    ∃ s, encodeHex (.bytes b) = .ok s ∧ (∀ c ∈ s, c ∈ hexLower) ∧ s.length = 2 * b.length ∧
      decodeHex (.str s) = .ok b := by
  refine ⟨hexlify b, ?_, hexlify_lower b, hexText_length (hexText_hexlify b),
    (decode_hex_decision _ _).1.mpr (hexText_hexlify b)⟩
  cases b with
  | nil => exact absurd rfl hb
  | cons x xs => rfl

/-- Text is encoded through its UTF-8 bytes. -/
theorem encode_hex_text (s : PStr) (hs : s ≠ []) :
    ∃ t, encodeHex (.str s) = .ok t ∧ decodeHex (.str t) = .ok (utf8Enc s) := by
  refine ⟨hexlify (utf8Enc s), ?_, (decode_hex_decision _ _).1.mpr (hexText_hexlify _)⟩
  have : utf8Enc s ≠ [] := by
    cases s with
    | nil => exact absurd rfl hs
    | cons c cs =>
      intro h
      have : utf8EncChar c = [] := by
        have : utf8Enc (c :: cs) = utf8EncChar c ++ utf8Enc cs := by simp [utf8Enc]
        rw [this] at h
        exact (List.append_eq_nil_iff.mp h).1
      exact utf8EncChar_ne_nil c this
  cases he : utf8Enc s with
  | nil => exact absurd he this
  | cons x xs => simp [encodeHex, he, encodeHex.enc]

/-- Refutation: `encode_hex` does not invert on the empty byte string (it raises
`IndexError`), and it does not strip a `0x` prefix: the prefix is encoded, for every
text that follows it. -/
theorem encode_hex_refuted :
    encodeHex (.bytes []) = .error .indexError ∧
    ∀ s, ∃ t, encodeHex (.str ('0' :: 'x' :: s)) = .ok t ∧
      decodeHex (.str t) = .ok (48 :: 120 :: utf8Enc s) := by
  refine ⟨rfl, fun s => ?_⟩
  exact encode_hex_text ('0' :: 'x' :: s) (by simp)

example : decodeHex (.str p!"0aF3") = .ok [10, 243] ∧ encodeHex (.bytes [10, 243]) = .ok p!"0af3" ∧
    decodeHex (.str p!"0aF") = .error .binasciiError := by decide

/-! ### C45 -/

/-- A UUID becomes 32 bytes that read back as the same UUID; whatever follows the first
16 bytes is ignored when reading, and shorter input is a `ValueError`. -/
theorem uuid_bytes32 (u : Nat) (hu : u < 2 ^ 128) :
    (uuidToBytes32 u).length = 32 ∧ bytes32ToUuid (uuidToBytes32 u) = .ok u ∧
    bigEndian ((uuidToBytes32 u).take 16) = u ∧ (uuidToBytes32 u).drop 16 = List.replicate 16 0 ∧
    ∀ v, v < 2 ^ 128 → uuidToBytes32 v = uuidToBytes32 u → v = u := by
  have hr : ∀ w, w < 2 ^ 128 → bytes32ToUuid (uuidToBytes32 w) = .ok w := by
    intro w hw
    simp [bytes32ToUuid, uuidToBytes32, ofBE_toBE (n := 16) (x := w) (by omega)]
  have ht : (uuidToBytes32 u).take 16 = toBE 16 u := by simp [uuidToBytes32]
  refine ⟨by simp [uuidToBytes32], hr u hu, ?_, by simp [uuidToBytes32], ?_⟩
  · rw [ht, bigEndian_eq]; exact ofBE_toBE (by omega)
  · intro v hv h
    have h1 := hr v hv
    rw [h, hr u hu] at h1
    exact (Except.ok.inj h1).symm

/-- Reading needs 16 bytes and looks at no others. -/
theorem bytes32_uuid (b : Bytes) :
    bytes32ToUuid b = if 16 ≤ b.length then .ok (bigEndian (b.take 16)) else .error .valueError := by
  unfold bytes32ToUuid
  simp only [List.length_take]
  by_cases h : 16 ≤ b.length
  · rw [if_pos (by omega), if_pos h, bigEndian_eq]
  · rw [if_neg (by omega), if_neg h]

example : uuidToBytes32 0x0102030405060708090a0b0c0d0e0f10 =
    [1, 2, 3, 4, 5, 6, 7, 8, 9, 10, 11, 12, 13, 14, 15, 16] ++ List.replicate 16 0 := by
  simp [uuidToBytes32, toBE]

/-! ### C44 -/

/-- The check on an id generated from a seed at any time and clock sequence: it succeeds
for exactly the seeds whose first six bytes denote the same number. -/
theorem generated_id_checks (ts cs : Nat) (seed seed' : Bytes) :
    checkIdSeed (.str (generateId ts cs seed)) seed' =
      .ok (bigEndian (seed'.take 6) == bigEndian (seed.take 6)) := by
  have hl := seedToNode_lt seed
  have hp : parseUuid (generateId ts cs seed) = some (uuid1 ts cs (seedToNode seed)) :=
    parseUuid_text _ (uuid1_lt _ _ _ hl)
  rw [checkIdSeed_some seed' hp, uuid1_node _ _ _ hl, bigEndian_eq, bigEndian_eq]
  simp only [seedToNode, seedLen]

/-- For seeds of at least six bytes (public keys have 64) the check succeeds for exactly
the seeds with the same first six bytes.  Missing for the full claim: shorter seeds,
refuted below. -/
theorem seeded_id_partial (ts cs : Nat) (seed seed' : Bytes) (h : 6 ≤ seed.length)
    (h' : 6 ≤ seed'.length) :
    (checkIdSeed (.str (generateId ts cs seed)) seed' = .ok true ↔ seed'.take 6 = seed.take 6) ∧
    (checkIdSeed (.str (generateId ts cs seed)) seed' = .ok false ↔ seed'.take 6 ≠ seed.take 6) := by
  rw [generated_id_checks]
  have hinj : bigEndian (seed'.take 6) = bigEndian (seed.take 6) ↔ seed'.take 6 = seed.take 6 := by
    constructor
    · intro e
      rw [bigEndian_eq, bigEndian_eq] at e
      have l1 : (seed'.take 6).length = 6 := by simp; omega
      have l2 : (seed.take 6).length = 6 := by simp; omega
      rw [← toBE_ofBE (seed'.take 6), ← toBE_ofBE (seed.take 6), l1, l2, e]
    · intro e; rw [e]
  constructor
  · rw [← hinj, Except.ok.injEq, beq_iff_eq]
  · rw [ne_eq, ← hinj, Except.ok.injEq, beq_eq_false_iff_ne]

/-- Refutation for short seeds: a leading zero byte is not seen, so an id generated from
`01` verifies against `00 01`. -/
theorem short_seed_refuted (ts cs : Nat) :
    checkIdSeed (.str (generateId ts cs [1])) [0, 1] = .ok true := by
  rw [generated_id_checks]; simp [bigEndian]

/-- An id derived from an id verifies against exactly the same seeds; deriving from text
that is not a UUID is a `ValueError`. -/
theorem derived_id_checks (ts cs : Nat) (id : PStr) :
    (∀ seed, checkIdSeed (.str id) seed = .ok true ∨ checkIdSeed (.str id) seed = .ok false) ∧
    match generateNewIdFromId ts cs id with
    | .ok id' => ∀ seed, checkIdSeed (.str id') seed = checkIdSeed (.str id) seed
    | .error e => e = .valueError ∧ ∀ seed, checkIdSeed (.str id) seed = .ok false := by
  cases hp : parseUuid id with
  | none =>
    refine ⟨fun seed => Or.inr (checkIdSeed_none seed hp), ?_⟩
    rw [newId_none ts cs hp]
    exact ⟨rfl, fun seed => checkIdSeed_none seed hp⟩
  | some u =>
    constructor
    · intro seed
      rw [checkIdSeed_some seed hp]
      cases (seedToNode seed == uuidNode u)
      · exact Or.inr rfl
      · exact Or.inl rfl
    · rw [newId_some ts cs hp]
      intro seed
      have hl : uuidNode u < 2 ^ 48 := Nat.mod_lt _ (by decide)
      rw [checkIdSeed_some seed (parseUuid_text _ (uuid1_lt _ _ _ hl)), checkIdSeed_some seed hp,
        uuid1_node _ _ _ hl]

/-- The variants with a hexadecimal seed do the same with the decoded seed. -/
theorem hex_seed_checks (ts cs : Nat) (hex id : PStr) (seed : Bytes) (h : HexText hex seed) :
    generateIdFromHex ts cs (.str hex) = .ok (generateId ts cs seed) ∧
    checkIdHexSeed (.str id) (.str hex) = checkIdSeed (.str id) seed := by
  have hd := (decode_hex_decision hex seed).1.mpr h
  unfold generateIdFromHex checkIdHexSeed
  rw [hd]
  exact ⟨rfl, rfl⟩

/-- `uuid.UUID(text)` takes exactly the texts of the grammar, and a text denotes at most one
UUID. -/
theorem uuid_grammar (s : PStr) (u : Nat) :
    (parseUuid s = some u ↔ UuidText s u) ∧ (UuidText s u → u < 2 ^ 128 ∧ ∀ v, UuidText s v → v = u) :=
  ⟨parseUuid_iff s u, fun h => ⟨uuidText_lt h, fun _ h' => uuidText_unique h' h⟩⟩

/-- The check, for any text and seed: it succeeds exactly if the text denotes a UUID whose node is
the number denoted by the first six bytes of the seed, and otherwise says no. -/
theorem id_check_decision (id : PStr) (seed : Bytes) :
    (checkIdSeed (.str id) seed = .ok true ↔ SeededBy id seed) ∧
    (checkIdSeed (.str id) seed = .ok false ↔ ¬ SeededBy id seed) := by
  have key : checkIdSeed (.str id) seed = .ok true ↔ SeededBy id seed := by
    unfold SeededBy
    cases hp : parseUuid id with
    | none =>
      rw [checkIdSeed_none seed hp]
      constructor
      · intro h; injection h with h; cases h
      · rintro ⟨u, hu, _⟩
        rw [(parseUuid_iff id u).mpr hu] at hp
        cases hp
    | some u =>
      rw [checkIdSeed_some seed hp, Except.ok.injEq, beq_iff_eq, bigEndian_eq]
      simp only [seedToNode, uuidNode, seedLen]
      constructor
      · intro h; exact ⟨u, (parseUuid_iff id u).mp hp, h.symm⟩
      · rintro ⟨v, hv, h⟩
        rw [(parseUuid_iff id v).mpr hv] at hp
        injection hp with hp
        subst hp
        exact h.symm
  refine ⟨key, ?_⟩
  rw [← key]
  rcases (derived_id_checks 0 0 id).1 seed with h | h <;> simp [h]

/-- The check of values that are no text: nothing but text is ever found to be from a seed or not to be, the
check raises, `TypeError` for a missing id and for bytes, `AttributeError` for anything else. -/
theorem id_check_values (v : Val) (seed : Bytes) :
    (∀ id, TextValue v id → (checkIdSeed v seed = .ok true ↔ SeededBy id seed) ∧
      (checkIdSeed v seed = .ok false ↔ ¬ SeededBy id seed)) ∧
    ((∀ id, ¬ TextValue v id) →
      ((v = .none ∨ ∃ b, v = .bytes b) → checkIdSeed v seed = .error .typeError) ∧
      (¬ (v = .none ∨ ∃ b, v = .bytes b) → checkIdSeed v seed = .error .attributeError)) := by
  constructor
  · rintro id (_ | @⟨k, _, he⟩)
    · exact id_check_decision id seed
    · have e : checkIdSeed (.enum k id) seed = checkIdSeed (.str id) seed := by
        unfold checkIdSeed
        dsimp only
        rw [if_pos he]
      rw [e]
      exact id_check_decision id seed
  · intro hn
    constructor
    · rintro (rfl | ⟨b, rfl⟩) <;> rfl
    · intro hv
      cases v with
      | none => exact absurd (.inl rfl) hv
      | bytes b => exact absurd (.inr ⟨b, rfl⟩) hv
      | str s => exact absurd (.plain s) (hn s)
      | enum e s =>
        unfold checkIdSeed
        dsimp only
        rw [if_neg fun he => hn s (.member he)]
      | _ => rfl

/-- Values that are no text, and one that is. -/
example : checkIdSeed .none [] = .error .typeError ∧ checkIdSeed (.int 5) [] = .error .attributeError ∧
    checkIdSeed (.enum .ftCategory p!"results") [1] = .ok false ∧ (∀ id, ¬ TextValue (.int 5) id) ∧
    TextValue (.enum .ftCategory p!"results") p!"results" := by
  refine ⟨rfl, rfl, ?_, (fun _ h => by cases h), .member (by decide)⟩
  decide +kernel

/-- An id can be derived from exactly the texts that denote a UUID. -/
theorem derived_id_exists (ts cs : Nat) (id : PStr) :
    (∃ id', generateNewIdFromId ts cs id = .ok id') ↔ ∃ u, UuidText id u := by
  cases hp : parseUuid id with
  | none =>
    rw [newId_none ts cs hp]
    constructor
    · rintro ⟨_, h⟩; cases h
    · rintro ⟨u, hu⟩
      rw [(parseUuid_iff id u).mpr hu] at hp
      cases hp
  | some u =>
    rw [newId_some ts cs hp]
    exact ⟨fun _ => ⟨u, (parseUuid_iff id u).mp hp⟩, fun _ => ⟨_, rfl⟩⟩

/-- Text that is too short or contains a character no UUID text has verifies against
nothing. -/
theorem not_uuid_checks (id : PStr) (seed : Bytes)
    (h : id.length < 32 ∨ ∃ c ∈ id, ¬ UuidChar c) : checkIdSeed (.str id) seed = .ok false := by
  rw [(id_check_decision id seed).2]
  rintro ⟨u, ⟨a, b, c, h1, h2, ⟨x, y, e, hx, hy, _, _⟩, h4, ⟨p, t, q, et, hp, hq, ht⟩⟩, _⟩
  have c1 := cut_chars h1
  have c2 := cut_chars h2
  rcases h with h | ⟨k, hk, hn⟩
  · have l1 : c.length ≤ b.length := by rw [e]; simp; omega
    have l2 := List.length_filter_le (fun x : Char => decide (x ≠ '-')) c
    omega
  · apply hn
    unfold UuidChar
    have other : k ∈ p!"-{}urnid:_xX+" → UuidChar k := fun h => Or.inr (Or.inl h)
    rcases c1.1 k hk with hk | hk
    · rcases c2.1 k hk with hk | hk
      · rw [e] at hk
        have brace : Brace k → UuidChar k := by
          rintro (rfl | rfl) <;> exact other (by simp)
        rcases List.mem_append.mp hk with hk | hk
        · rcases List.mem_append.mp hk with hk | hk
          · exact brace (hx k hk)
          · by_cases hd : k = '-'
            · subst hd; exact other (by simp)
            · have hk : k ∈ c.filter (· ≠ '-') := by
                rw [List.mem_filter]; exact ⟨hk, by simpa using hd⟩
              rw [et] at hk
              rcases List.mem_append.mp hk with hk | hk
              · rcases List.mem_append.mp hk with hk | hk
                · exact Or.inr (Or.inr (hp k hk))
                · rcases signedHex_chars ht k hk with h | h
                  · refine other ?_
                    simp at h ⊢
                    rcases h with h | h | h | h | h <;> simp [h]
                  · exact Or.inl h
              · exact Or.inr (Or.inr (hq k hk))
        · exact brace (hy k hk)
      · refine other ?_
        simp at hk ⊢
        rcases hk with h | h | h | h <;> simp [h]
    · refine other ?_
      simp at hk ⊢
      rcases hk with h | h | h | h <;> simp [h]

/-- Refutation of uniqueness of the text: Arabic-Indic digits, underscores and signs are taken
too, so one UUID has many texts. -/
theorem uuid_text_refuted :
    parseUuid p!"00000100-0800-0000-0000-000000000012" = some 0x100080000000000000000000012 ∧
    parseUuid p!"{urn:uuid: +0x1000_800000000000000000000١٢}" = some 0x100080000000000000000000012 := by
  decide +kernel

/-- Non-vacuity: texts that are no ids. -/
example : ∃ c ∈ p!"01020304-0506-1708-890a-0b0c0d0e0fzz", ¬ UuidChar c := by
  refine ⟨'z', by decide, ?_⟩
  rintro (⟨d, h⟩ | h | h)
  · have := (wideNibble_iff 'z' d).mpr h
    rw [show hexVal (asciiOf 'z') = none by decide] at this
    cases this
  · revert h; decide
  · have := (blank_iff 'z').mpr h
    revert this; decide

/-- Non-vacuity: a text that is a UUID, and one that is none although all characters are fine. -/
example : UuidText p!"01020304-0506-1708-890a-0b0c0d0e0f10" 0x0102030405061708890a0b0c0d0e0f10 ∧
    ¬ ∃ u, UuidText p!"0102030405061708890a0b0c0d0e0f1_" u := by
  refine ⟨(parseUuid_iff _ _).mp (by decide +kernel), ?_⟩
  rintro ⟨u, hu⟩
  have := (parseUuid_iff _ _).mpr hu
  rw [show parseUuid p!"0102030405061708890a0b0c0d0e0f1_" = none by decide +kernel] at this
  cases this

end Verif.Props
