import Verif.Lemmas.Address
import Verif.Lemmas.Toy
import Verif.Props.Promissory
import Verif.Props.Validity
/-!
# C68, C69, C70, C71: Ethereum addresses, the hash and signer of promissory notes, the payer of a task,
spelling of addresses
-/

set_option linter.unusedSimpArgs false

namespace Verif.Props

open Verif Spec

/-! ### C68 -/

private theorem digitChar_nibble {n : Nat} (h : n < 16) : Nibble (Nat.digitChar n) n := by
  rcases lt16_cases h with rfl | rfl | rfl | rfl | rfl | rfl | rfl | rfl | rfl | rfl | rfl |
        rfl | rfl | rfl | rfl | rfl <;> exact Or.inl rfl

private theorem bigEndian_append (a b : Bytes) :
    bigEndian (a ++ b) = bigEndian a * 256 ^ b.length + bigEndian b := by
  induction a with
  | nil => simp [bigEndian]
  | cons x xs ih =>
    simp only [List.cons_append, bigEndian, List.length_append, ih, Nat.pow_add, Nat.add_mul,
      Nat.mul_assoc]
    omega

/-- The digits of a number, padded to an even number, denote its minimal bytes. -/
private theorem toDigits_key (n : Nat) :
    ∃ key, KeyText (Nat.toDigits 16 n) key ∧ bigEndian key = n ∧ key ≠ [] ∧
      (n ≠ 0 → key.head? ≠ some 0) ∧ (n < 256 → key.length = 1) := by
  suffices h : ∃ key, (HexText (Nat.toDigits 16 n) key ∨ HexText ('0' :: Nat.toDigits 16 n) key) ∧
      bigEndian key = n ∧ key ≠ [] ∧ (n ≠ 0 → key.head? ≠ some 0) ∧ (n < 256 → key.length = 1) by
    obtain ⟨key, h1, h2⟩ := h
    exact ⟨key, ⟨[], _, rfl, by simp, h1⟩, h2⟩
  induction n using Nat.strongRecOn with
  | ind n ih =>
    by_cases h16 : n < 16
    · refine ⟨[UInt8.ofNat n], Or.inr ?_, ?_, by simp, ?_, fun _ => rfl⟩
      · rw [Nat.toDigits_of_lt_base h16]
        exact .cons nibble_zero (digitChar_nibble h16) (by rw [UInt8.toNat_ofNat']; omega) .nil
      · simp only [bigEndian, UInt8.toNat_ofNat', List.length_nil]; omega
      · intro h0 he
        injection he with he
        have := congrArg UInt8.toNat he
        rw [UInt8.toNat_ofNat'] at this
        simp at this
        omega
    by_cases h256 : n < 256
    · have hd : n / 16 < 16 := by omega
      refine ⟨[UInt8.ofNat n], Or.inl ?_, ?_, by simp, ?_, fun _ => rfl⟩
      · rw [Nat.toDigits_of_base_le (by omega) (by omega), Nat.toDigits_of_lt_base hd]
        exact .cons (digitChar_nibble hd) (digitChar_nibble (by omega))
          (by rw [UInt8.toNat_ofNat']; omega) .nil
      · simp only [bigEndian, UInt8.toNat_ofNat', List.length_nil]; omega
      · intro h0 he
        injection he with he
        have := congrArg UInt8.toNat he
        rw [UInt8.toNat_ofNat'] at this
        simp at this
        omega
    · obtain ⟨key, h1, h2, h3, h4, _⟩ := ih (n / 256) (by omega)
      have e : Nat.toDigits 16 n = Nat.toDigits 16 (n / 256) ++
          [Nat.digitChar (n / 16 % 16), Nat.digitChar (n % 16)] := by
        rw [Nat.toDigits_of_base_le (by omega) (by omega : 16 ≤ n),
          Nat.toDigits_of_base_le (by omega) (by omega : 16 ≤ n / 16), Nat.div_div_eq_div_mul,
          List.append_assoc]
        rfl
      have last : HexText [Nat.digitChar (n / 16 % 16), Nat.digitChar (n % 16)]
          [UInt8.ofNat (n % 256)] :=
        .cons (digitChar_nibble (by omega)) (digitChar_nibble (by omega))
          (by rw [UInt8.toNat_ofNat']; omega) .nil
      refine ⟨key ++ [UInt8.ofNat (n % 256)], ?_, ?_, by simp, ?_, fun h => absurd h h256⟩
      · rw [e]
        rcases h1 with h1 | h1
        · exact Or.inl (hexText_append h1 last)
        · exact Or.inr (hexText_append h1 last)
      · rw [bigEndian_append, h2]
        simp only [bigEndian, UInt8.toNat_ofNat', List.length_nil, List.length_cons]
        omega
      · intro _
        have := h4 (by omega)
        cases key with
        | nil => exact absurd rfl h3
        | cons x xs => exact this

private theorem bigEndian_lt (b : Bytes) : bigEndian b < 256 ^ b.length := by
  induction b with
  | nil => simp [bigEndian]
  | cons x xs ih =>
    simp only [bigEndian, List.length_cons, Nat.pow_succ]
    have hx := x.toNat_lt
    have : x.toNat * 256 ^ xs.length ≤ 255 * 256 ^ xs.length := Nat.mul_le_mul_right _ (by omega)
    omega

private theorem bigEndian_inj_len : ∀ {a b : Bytes}, a.length = b.length → bigEndian a = bigEndian b →
    a = b
  | [], [], _, _ => rfl
  | x :: xs, y :: ys, hl, h => by
    simp only [List.length_cons, Nat.add_right_cancel_iff] at hl
    simp only [bigEndian, hl] at h
    have h1 := bigEndian_lt xs
    have h2 := bigEndian_lt ys
    rw [hl] at h1
    have hp : 0 < 256 ^ ys.length := Nat.pow_pos (by omega)
    have hxy : x.toNat = y.toNat := by
      have e1 : (x.toNat * 256 ^ ys.length + bigEndian xs) / 256 ^ ys.length = x.toNat := by
        rw [Nat.mul_comm, Nat.mul_add_div hp, Nat.div_eq_of_lt h1]; rfl
      have e2 : (y.toNat * 256 ^ ys.length + bigEndian ys) / 256 ^ ys.length = y.toNat := by
        rw [Nat.mul_comm, Nat.mul_add_div hp, Nat.div_eq_of_lt h2]; rfl
      rw [← e1, ← e2, h]
    rw [hxy] at h
    rw [UInt8.toNat_inj.mp hxy, bigEndian_inj_len hl (by omega)]

/-- Minimal bytes are determined by the number. -/
private theorem minimal_unique {a b : Bytes} (h : bigEndian a = bigEndian b) (ha : a ≠ []) (hb : b ≠ [])
    (la : 1 < a.length → a.head? ≠ some 0) (lb : 1 < b.length → b.head? ≠ some 0) : a = b := by
  have big : ∀ {c d : Bytes}, bigEndian c = bigEndian d → c ≠ [] → d ≠ [] →
      (1 < c.length → c.head? ≠ some 0) → ¬ d.length < c.length := by
    intro c d h hc hd lc hlt
    have hdl : 0 < d.length := List.length_pos_iff.mpr hd
    have := lc (by omega)
    cases c with
    | nil => exact hc rfl
    | cons x xs =>
      have hx : 0 < x.toNat := by
        rcases Nat.eq_zero_or_pos x.toNat with h0 | h0
        · exact absurd (by rw [List.head?_cons, UInt8.toNat_inj.mp (h0.trans rfl : x.toNat = (0 : UInt8).toNat)]) this
        · exact h0
      simp only [bigEndian] at h
      have h1 := bigEndian_lt d
      have h2 : 256 ^ d.length ≤ 256 ^ xs.length :=
        Nat.pow_le_pow_right (by omega) (by simp only [List.length_cons] at hlt; omega)
      have h3 : 1 * 256 ^ xs.length ≤ x.toNat * 256 ^ xs.length := Nat.mul_le_mul_right _ hx
      omega
  have h1 := big h ha hb la
  have h2 := big h.symm hb ha lb
  exact bigEndian_inj_len (by omega) h

private theorem keyText_prefix {t : PStr} {key : Bytes} (h : KeyText t key)
    (hd : ∀ c ∈ t, ∃ n, Nibble c n) : KeyText ('0' :: 'x' :: t) key := by
  obtain ⟨pre, u, rfl, hp, h⟩ := h
  simp only [List.mem_cons, List.not_mem_nil, or_false] at hp
  rcases hp with rfl | rfl | rfl
  · exact ⟨p!"0x", u, rfl, by simp, h⟩
  · obtain ⟨n, hn⟩ := hd 'x' (by simp); exact absurd hn (nibble_x n).1
  · obtain ⟨n, hn⟩ := hd 'X' (by simp); exact absurd hn (nibble_x n).2

private theorem toDigits_nibbles (n : Nat) : ∀ c ∈ Nat.toDigits 16 n, ∃ k, Nibble c k := by
  induction n using Nat.strongRecOn with
  | ind n ih =>
    intro c hc
    rw [Nat.toDigits_eq_if (by omega)] at hc
    split at hc
    · rename_i h
      rw [List.mem_singleton] at hc
      exact ⟨n, hc ▸ digitChar_nibble h⟩
    · rcases List.mem_append.mp hc with hc | hc
      · exact ih (n / 16) (by omega) c hc
      · rw [List.mem_singleton] at hc
        exact ⟨n % 16, hc ▸ digitChar_nibble (by omega)⟩

private theorem keyBytes_iff (v : Val) (key : Bytes) : keyBytes v = .ok key ↔ KeyOf v key := by
  cases v with
  | str s =>
    rw [keyBytes_text]
    exact ⟨.text, fun h => by cases h; assumption⟩
  | enum e s =>
    have ht := keyBytes_text s key
    unfold keyBytes at ht ⊢
    dsimp only at ht ⊢
    cases he : e.isStringEnum with
    | true =>
      simp only [if_true, ht]
      exact ⟨.member he, fun h => by cases h; assumption⟩
    | false =>
      simp only [Bool.false_eq_true, if_false, reduceCtorEq, false_iff]
      intro h
      cases h with | member h1 h2 => rw [he] at h1; cases h1
  | bool b =>
    simp only [keyBytes, Except.ok.injEq]
    exact ⟨fun h => h ▸ .bool, fun h => by cases h; rfl⟩
  | bytes b =>
    simp only [keyBytes, Except.ok.injEq]
    exact ⟨fun h => h ▸ .bytes, fun h => by cases h; rfl⟩
  | int i =>
    simp only [keyBytes]
    cases i with
    | negSucc n =>
      rw [if_neg (by omega)]
      simp only [reduceCtorEq, false_iff]
      intro h
      cases h
    | ofNat n =>
      rw [if_pos (by simp)]
      obtain ⟨k, h1, h2, h3, h4, h5⟩ := toDigits_key n
      have hk := (hexToBytes_iff _ _).mpr (keyText_prefix h1 (toDigits_nibbles n))
      have lead : 1 < k.length → k.head? ≠ some 0 := fun hl => h4 (by
        intro h0; rw [h5 (by omega)] at hl; omega)
      rw [show (Int.ofNat n).toNat = n from rfl, hk]
      constructor
      · intro h
        injection h with h
        subst h
        exact .int h2 h3 lead
      · intro h
        have : ∀ {v : Val}, KeyOf v key → v = .int (Int.ofNat n) → k = key := by
          intro v h hv
          cases h with
          | @int i key e1 e2 e3 =>
            injection hv with hv
            have hv : i = n := Int.ofNat.inj hv
            exact minimal_unique (by rw [h2, e1, hv]) h3 e2 lead e3
          | text | member | bytes | bool => cases hv
        rw [this h rfl]
  | _ =>
    simp only [keyBytes, reduceCtorEq, false_iff]
    intro h
    cases h

/-- C68: `pubkey_to_address` gives the checksummed address (EIP-55) of the key the argument stands
for, and nothing else. -/
theorem address_decision (K : Bytes → Bytes) (hK : ∀ b, (K b).length = 32) (v : Val) (a : PStr) :
    pubkeyToAddress K v = .ok a ↔ ∃ key, KeyOf v key ∧ a = keyAddress K key := by
  unfold pubkeyToAddress
  constructor
  · intro h
    split at h
    · cases h
    rename_i k hk
    rw [hashAddress_eq K hK] at h
    injection h with h
    exact ⟨k, (keyBytes_iff v k).mp hk, h.symm⟩
  · rintro ⟨key, hk, rfl⟩
    rw [(keyBytes_iff v key).mpr hk]
    exact hashAddress_eq K hK key

/-- C68: arguments that are no key: text is a `ValueError`, so is a negative number (as
`binascii.Error`); anything but text, bytes and numbers is a `TypeError`. -/
theorem address_refuses (K : Bytes → Bytes) (v : Val) (h : ∀ key, ¬ KeyOf v key) :
    (∀ s, v = .str s → pubkeyToAddress K v = .error .valueError) ∧
    (∀ i, v = .int i → i < 0 ∧ pubkeyToAddress K v = .error .binasciiError) ∧
    ((∀ s, v ≠ .str s) → (∀ i, v ≠ .int i) → (∀ e s, v ≠ .enum e s) →
      pubkeyToAddress K v = .error .typeError) := by
  refine ⟨?_, ?_, ?_⟩
  · rintro s rfl
    unfold pubkeyToAddress
    rw [keyBytes_text_error s (fun key hk => h key (.text hk))]
  · rintro i rfl
    have hi : ¬ 0 ≤ i := by
      intro h0
      obtain ⟨k, h1, h2, h3, h4, h5⟩ := toDigits_key i.toNat
      have := (keyBytes_iff (.int i) k).mp (by
        simp only [keyBytes]
        rw [if_pos h0]
        exact (hexToBytes_iff _ _).mpr (keyText_prefix h1 (toDigits_nibbles _)))
      exact h k this
    refine ⟨by omega, ?_⟩
    unfold pubkeyToAddress
    simp only [keyBytes]
    rw [if_neg hi]
  · intro h1 h2 h3
    unfold pubkeyToAddress
    cases v <;> simp only [keyBytes]
    all_goals first
      | exact absurd .bytes (h _)
      | exact absurd .bool (h _)
      | exact absurd rfl (h1 _)
      | exact absurd rfl (h2 _)
      | exact absurd rfl (h3 _ _)
      | rfl

/-- C68: the address is well formed: `0x` and forty digits that denote the last twenty bytes of the
hash of the key. -/
theorem address_wellformed (K : Bytes → Bytes) (hK : ∀ b, (K b).length = 32) (key : Bytes) :
    Address (keyAddress K key) ((K key).drop 12) := by
  have hl : ((K key).drop 12).length = 20 := by rw [List.length_drop, hK]
  obtain ⟨t, e, h⟩ := eip55_denotes K _ hl
  exact ⟨t, e, h, hl⟩

/-- C68: however the same key is spelled as text (either case, with or without `0x`), the address is the
same text. -/
theorem address_spelling (K : Bytes → Bytes) (hK : ∀ b, (K b).length = 32) (s t : PStr) (key : Bytes)
    (hs : KeyText s key) (ht : KeyText t key) :
    pubkeyToAddress K (.str s) = pubkeyToAddress K (.str t) := by
  rw [(address_decision K hK _ _).mpr ⟨key, .text hs, rfl⟩,
    (address_decision K hK _ _).mpr ⟨key, .text ht, rfl⟩]

/-- C68: values with one address stand for keys whose hashes end in the same twenty bytes: for one
key, or for two that collide. -/
theorem address_injective (K : Bytes → Bytes) (hK : ∀ b, (K b).length = 32) (v w : Val) (a : PStr)
    (kv kw : Bytes) (hv : KeyOf v kv) (hw : KeyOf w kw) (h1 : pubkeyToAddress K v = .ok a)
    (h2 : pubkeyToAddress K w = .ok a) : (K kv).drop 12 = (K kw).drop 12 := by
  rw [(address_decision K hK _ _).mpr ⟨kv, hv, rfl⟩] at h1
  rw [(address_decision K hK _ _).mpr ⟨kw, hw, rfl⟩] at h2
  injection h1 with h1
  injection h2 with h2
  refine eip55_inj K ?_ ?_ (h1.trans h2.symm) <;> rw [List.length_drop, hK]

/-- C68 refuted for numbers: a 64-byte key that begins with a zero byte gets, when it is given as a
number, the address of another key `k` (the same number without leading zeros).  That is another address than the one for bytes or text,
unless the hashes of the two keys collide. -/
theorem address_int_refuted (K : Bytes → Bytes) (hK : ∀ b, (K b).length = 32) (key : Bytes)
    (hl : key.length = 64) (h0 : key.head? = some 0) :
    ∃ k a b, bigEndian k = bigEndian key ∧ key ≠ k ∧ pubkeyToAddress K (.bytes key) = .ok a ∧
      pubkeyToAddress K (.str (hexlify key)) = .ok a ∧
      pubkeyToAddress K (.int (bigEndian key)) = .ok b ∧ b = keyAddress K k ∧
      (a = b → (K key).drop 12 = (K k).drop 12) := by
  obtain ⟨k, h1, h2, h3, h4, h5⟩ := toDigits_key (bigEndian key)
  have lead : 1 < k.length → k.head? ≠ some 0 := fun hl => h4 (by
    intro h0; rw [h5 (by omega)] at hl; omega)
  have hki : KeyOf (.int (bigEndian key)) k := .int h2 h3 lead
  have hne : key ≠ k := by
    intro e
    subst e
    exact lead (by omega) h0
  refine ⟨k, _, _, h2, hne, (address_decision K hK _ _).mpr ⟨key, .bytes, rfl⟩,
    (address_decision K hK _ _).mpr ⟨key, .text ⟨[], _, rfl, by simp, Or.inl (hexText_hexlify key)⟩, rfl⟩,
    (address_decision K hK _ _).mpr ⟨k, hki, rfl⟩, rfl, fun hc => eip55_inj K ?_ ?_ hc⟩
  · rw [List.length_drop, hK]
  · rw [List.length_drop, hK]

/-! #### Non-vacuity -/

/-- A hash to compute with (not cryptographic). -/
private def toyK (b : Bytes) : Bytes :=
  toBE 32 ((ofBE b * 0x9e3779b97f4a7c15f39cc0605cedc8341082276bf3a27251f86c6a11d0c18e95 + b.length)
    % 2 ^ 256)

private theorem toyK_length (b : Bytes) : (toyK b).length = 32 := by simp [toyK]

/-- Three spellings of one key, a fourth text that is none; capitals and small letters in the address. -/
example : pubkeyToAddress toyK (.str p!"0xABCDEF") = pubkeyToAddress toyK (.str p!"abcdef") ∧
    pubkeyToAddress toyK (.str p!"0XaBcDeF") = pubkeyToAddress toyK (.bytes [0xab, 0xcd, 0xef]) ∧
    pubkeyToAddress toyK (.str p!"xyz") = .error .valueError ∧
    ((pubkeyToAddress toyK (.int 0xabcdef)).toOption.getD []).any (fun c => 97 ≤ c.toNat && c.toNat ≤ 102)
      = true ∧
    ((pubkeyToAddress toyK (.int 0xabcdef)).toOption.getD []).any (fun c => 65 ≤ c.toNat && c.toNat ≤ 70)
      = true := by decide +kernel

example : KeyText p!"0xABCDEF" [0xab, 0xcd, 0xef] ∧ KeyText p!"abcdef" [0xab, 0xcd, 0xef] ∧
    KeyText p!"0xf" [15] ∧ ∀ key, ¬ KeyOf (.str p!"xyz") key := by
  refine ⟨(keyBytes_text _ _).mp (by decide +kernel), (keyBytes_text _ _).mp (by decide +kernel),
    (keyBytes_text _ _).mp (by decide +kernel), ?_⟩
  intro key h
  have h1 := (keyBytes_iff _ _).mpr h
  have h2 : keyBytes (.str p!"xyz") = .error .valueError := by decide +kernel
  rw [h2] at h1
  cases h1

/-- A key with a leading zero, as bytes and as a number. -/
example : ((0 : UInt8) :: List.replicate 63 1).length = 64 ∧
    pubkeyToAddress toyK (.bytes (0 :: List.replicate 63 1)) ≠
      pubkeyToAddress toyK (.int (bigEndian (0 :: List.replicate 63 1))) := by decide +kernel

/-! ### C69 -/

/-- The hash of hexadecimal text, as a signed message. -/
private theorem defunct_hash (K : Bytes → Bytes) {s : PStr} {b : Bytes} (h : Denotes s b) :
    defunctHashMessage K s = .ok (K (signedMessage b)) := by
  obtain ⟨t, rfl, ht⟩ := h
  have : hexToBytes ('0' :: 'x' :: t) = .ok b :=
    (hexToBytes_iff _ _).mpr ⟨p!"0x", t, rfl, by simp, Or.inl ht⟩
  unfold defunctHashMessage
  rw [this]
  unfold signedMessage asciiBytes
  simp

/-- C69: what is signed for a note: the Keccak hash of the preamble for 124 bytes and the 124 bytes
of the note (contract, payer, payee, amount, subtask). -/
theorem note_hash_bytes (P : EthPrims) (n : Note) (p : Promise) (h : Says n p) :
    ∃ b : Bytes, n.hash P.env = .ok (P.keccak
        ([25] ++ p!"Ethereum Signed Message:\n124".map (fun c => UInt8.ofNat c.toNat) ++ b)) ∧
      b.length = 124 ∧ b.take 20 = p.contract ∧ (b.drop 20).take 20 = p.payer ∧
      (b.drop 40).take 20 = p.payee ∧ bigEndian ((b.drop 60).take 32) = p.amount ∧
      bigEndian ((b.drop 92).take 16) = p.subtask ∧ b.drop 108 = List.replicate 16 0 := by
  obtain ⟨s, b, hm, hd, hl, hrest⟩ := promissory_layout n p h
  refine ⟨b, ?_, hl, hrest⟩
  unfold Note.hash
  rw [hm]
  show defunctHashMessage P.keccak s = _
  rw [defunct_hash P.keccak hd]
  unfold signedMessage
  rw [hl]
  rfl

/-- C69: different messages are hashed as different bytes. -/
theorem signed_message_injective (a b : Bytes) (h : signedMessage a = signedMessage b) : a = b := by
  unfold signedMessage at h
  rw [List.append_assoc, List.append_assoc] at h
  have h := List.append_cancel_left h
  have hl := congrArg List.length h
  simp only [List.length_append, List.length_map] at hl
  have mono : ∀ {m n : Nat}, m ≤ n → (Nat.toDigits 10 m).length ≤ (Nat.toDigits 10 n).length := by
    intro m n hmn
    rw [Nat.length_toDigits_le_iff (by omega) Nat.length_toDigits_pos]
    exact Nat.lt_of_le_of_lt hmn
      ((Nat.length_toDigits_le_iff (by omega) Nat.length_toDigits_pos).mp (Nat.le_refl _))
  have e : a.length = b.length := by
    rcases Nat.le_total a.length b.length with hab | hab
    · have := mono hab; omega
    · have := mono hab; omega
  rw [e] at h
  exact List.append_cancel_left h

/-- C69: a signature is valid for a note exactly if its three parts recover, over the hash of the note,
a public key whose checksummed address is the payer's, letter by letter. -/
theorem note_signer (P : EthPrims) (hK : ∀ b, (P.keccak b).length = 32) (n : Note) (p : Promise)
    (sig : Val) (h : Says n p) :
    n.sigValid P.env sig = .ok true ↔ ∃ v r s hash pk, sig.iter = some [v, r, s] ∧
      n.hash P.env = .ok hash ∧ P.ecRecover hash v r s = .ok pk ∧
      n.addressFrom = keyAddress P.keccak pk := by
  rw [sig_valid_decision]
  obtain ⟨b, hb, _⟩ := note_hash_bytes P n p h
  constructor
  · rintro ⟨v, r, s, g, h1, h2, h3⟩
    rw [hb] at h2
    injection h2 with h2
    subst h2
    simp only [EthPrims.env] at h3
    rw [if_pos (hK _)] at h3
    split at h3
    · cases h3
    rename_i pk hpk
    rw [hashAddress_eq P.keccak hK] at h3
    injection h3 with h3
    exact ⟨v, r, s, _, pk, h1, hb, hpk, h3.symm⟩
  · rintro ⟨v, r, s, g, pk, h1, h2, h3, h4⟩
    refine ⟨v, r, s, g, h1, h2, ?_⟩
    rw [hb] at h2
    injection h2 with h2
    subst h2
    simp only [EthPrims.env]
    rw [if_pos (hK _), h3]
    simp only
    rw [hashAddress_eq P.keccak hK, h4]

/-- The bytes hashed for these two notes differ and have one Keccak hash. -/
def KeccakCollision (P : EthPrims) (n1 n2 : Note) : Prop :=
  ∃ s1 s2 b1 b2, n1.hexmsg = .ok s1 ∧ n2.hexmsg = .ok s2 ∧ Denotes s1 b1 ∧ Denotes s2 b2 ∧
    signedMessage b1 ≠ signedMessage b2 ∧ P.keccak (signedMessage b1) = P.keccak (signedMessage b2)

/-- The hashes of these two notes differ, and this signature recovers, for both of them, keys with
the address of the payer. -/
def DoubleSignature (P : EthPrims) (n1 n2 : Note) (sig : Val) : Prop :=
  ∃ h1 h2 v r s pk1 pk2, n1.hash P.env = .ok h1 ∧ n2.hash P.env = .ok h2 ∧ h1 ≠ h2 ∧
    sig.iter = some [v, r, s] ∧ P.ecRecover h1 v r s = .ok pk1 ∧ P.ecRecover h2 v r s = .ok pk2 ∧
    n1.addressFrom = keyAddress P.keccak pk1 ∧ n1.addressFrom = keyAddress P.keccak pk2

/-- C69: a signature valid for two notes of one payer is valid for one promise, unless the bytes of
the notes collide under Keccak, or the signature fits two hashes. -/
theorem note_binding_prims (P : EthPrims) (hK : ∀ b, (P.keccak b).length = 32) (n1 n2 : Note)
    (p1 p2 : Promise) (sig : Val) (h1 : Says n1 p1) (h2 : Says n2 p2)
    (hp : n1.addressFrom = n2.addressFrom) (v1 : n1.sigValid P.env sig = .ok true)
    (v2 : n2.sigValid P.env sig = .ok true) : p1 = p2 ∨ KeccakCollision P n1 n2 ∨
      DoubleSignature P n1 n2 sig := by
  obtain ⟨v, r, s, g1, k1, i1, j1, l1, m1⟩ := (note_signer P hK n1 p1 sig h1).mp v1
  obtain ⟨v', r', s', g2, k2, i2, j2, l2, m2⟩ := (note_signer P hK n2 p2 sig h2).mp v2
  rw [i1] at i2
  simp only [Option.some.injEq, List.cons.injEq, and_true] at i2
  obtain ⟨rfl, rfl, rfl⟩ := i2
  by_cases hg : g1 = g2
  · subst hg
    obtain ⟨t1, b1, e1, f1, _⟩ := promissory_layout n1 p1 h1
    obtain ⟨t2, b2, e2, f2, _⟩ := promissory_layout n2 p2 h2
    by_cases hb : b1 = b2
    · subst hb
      exact Or.inl (promissory_unambiguous n1 n2 p1 p2 h1 h2 t1 t2 b1 e1 e2 f1 f2)
    · refine Or.inr (Or.inl ⟨t1, t2, b1, b2, e1, e2, f1, f2,
        fun h => hb (signed_message_injective _ _ h), ?_⟩)
      unfold Note.hash at j1 j2
      rw [e1] at j1
      rw [e2] at j2
      have j1 : defunctHashMessage P.keccak t1 = .ok g1 := j1
      have j2 : defunctHashMessage P.keccak t2 = .ok g1 := j2
      rw [defunct_hash _ f1] at j1
      rw [defunct_hash _ f2] at j2
      injection j1 with j1
      injection j2 with j2
      rw [j1, j2]
  · exact Or.inr (Or.inr ⟨g1, g2, v, r, s, k1, k2, j1, j2, hg, i1, l1, l2, m1, hp ▸ m2⟩)

/-- The law of ECDSA for one key pair: what `priv` signs recovers to `pub`. -/
def EcPair (P : EthPrims) (priv pub : Bytes) : Prop :=
  ∀ h v r s, h.length = 32 → P.ecSign h priv = .ok (v, r, s) →
    P.ecRecover h (.int v) (.bytes (toBE 32 r)) (.bytes (toBE 32 s)) = .ok pub

private theorem ecPair_keyPair (P : EthPrims) (hK : ∀ b, (P.keccak b).length = 32) {priv pub : Bytes}
    (h : EcPair P priv pub) : KeyPair P.env priv (keyAddress P.keccak pub) := by
  intro hash v r s hs
  simp only [EthPrims.env] at hs ⊢
  split at hs
  · rename_i hl
    rw [if_pos hl, h hash v r s hl hs]
    exact hashAddress_eq P.keccak hK pub
  · cases hs

/-- C69: notes of a task signed with the private key of the public key that the task names, in any
of its spellings, verify. -/
theorem requestor_notes_verify (P : EthPrims) (hK : ∀ b, (P.keccak b).length = 32) (m m' : Msg)
    (contract : PStr) (priv pub : Bytes) (hc : m.cls = .TaskToCompute)
    (hk : KeyOf (getAttr m.attrs p!"requestor_ethereum_public_key") pub) (law : EcPair P priv pub)
    (h : signAllNotes P.env m contract priv = .ok m') :
    verifyAllNotes P.env m' contract = .ok true :=
  (ttc_notes_sign_verify P.env m m' contract priv (keyAddress P.keccak pub) hc
    ((address_decision P.keccak hK _ _).mpr ⟨pub, hk, rfl⟩) (ecPair_keyPair P hK law) h).1

/-- C71: a valid provider's note in a `SubtaskResultsVerify` has the provider's address in checksummed
form. -/
theorem srv_note_checksummed (P : EthPrims) (hK : ∀ b, (P.keccak b).length = 32) (m : Msg)
    (contract : PStr) (n : Note) (p : Promise) (hn : srvConcentNote m contract = .ok n) (hs : Says n p)
    (h : verifySrvNote P.env m contract = .ok true) : n.addressFrom = eip55 P.keccak p.payer := by
  rw [verifySrvNote_of hn] at h
  obtain ⟨v, r, s, g, pk, _, _, _, e⟩ := (note_signer P hK n p _ hs).mp h
  have hp := hs.payer
  obtain ⟨t, e1, h1, _⟩ := hp
  obtain ⟨u, e2, h2, _⟩ := address_wellformed P.keccak hK pk
  have : t = u := by
    rw [e, e2] at e1
    injection e1 with _ e1
    injection e1 with _ e1
    exact e1.symm
  subst this
  rw [e, hexText_unique h1 h2]
  rfl

/-- C71: the note of a `SubtaskResultsVerify`, signed with the key of the provider's address, verifies
exactly if the provider gave the address in checksummed form.  Partial: other spellings of the
same address do not verify, see `srv_note_spelling_refuted`. -/
theorem srv_note_verify_partial (P : EthPrims) (hK : ∀ b, (P.keccak b).length = 32) (m m' : Msg)
    (contract : PStr) (priv pub : Bytes) (n : Note) (p : Promise) (law : EcPair P priv pub)
    (hn : srvConcentNote m contract = .ok n) (hs : Says n p)
    (hp : p.payer = (P.keccak pub).drop 12) (h : signSrvNote P.env m contract priv = .ok m') :
    verifySrvNote P.env m' contract = .ok true ↔ n.addressFrom = eip55 P.keccak p.payer := by
  have hst : srvConcentNote m' contract = .ok n := by
    unfold signSrvNote at h
    rw [hn] at h
    simp only at h
    split at h
    · cases h
    injection h with h
    subst h
    rw [← hn]
    unfold srvConcentNote srvConcentRaw
    simp only
    rw [getAttr_setName, if_neg (by decide)]
  constructor
  · exact srv_note_checksummed P hK m' contract n p hst hs
  · intro e
    refine srv_note_sign_verify P.env m m' contract priv n hn ?_ h
    rw [e, hp]
    exact ecPair_keyPair P hK law

/-- A toy scheme: `s` is the private key, `r` the hash; the public key is the private one twice. -/
private def toyPrims : EthPrims where
  keccak := toyK
  ecSign h priv := .ok (27, ofBE h, ofBE priv)
  ecRecover h v r s :=
    match v, s with
    | .int 27, .bytes x => if r = .bytes h then .ok (x ++ x) else .ok (List.replicate 64 0)
    | _, _ => .error .valueError

private theorem toyPrims_law (priv : Bytes) (h : priv.length = 32) :
    EcPair toyPrims priv (priv ++ priv) := by
  intro hash v r s hl hs
  simp only [toyPrims] at hs ⊢
  injection hs with hs
  simp only [Prod.mk.injEq] at hs
  obtain ⟨rfl, rfl, rfl⟩ := hs
  have e1 : toBE 32 (ofBE hash) = hash := by rw [← hl]; exact toBE_ofBE hash
  have e2 : toBE 32 (ofBE priv) = priv := by rw [← h]; exact toBE_ofBE priv
  simp only [e1, e2]
  rfl

private def key1 : Bytes := List.replicate 32 7

/-- A task that names the key `key` (as some value). -/
private def task (key : Val) : Msg where
  cls := .TaskToCompute
  ty := .int 2002
  ts := .int 1
  enc := .bool false
  sig := .none
  attrs := [(p!"requestor_ethereum_public_key", key), (p!"price", .int 1000),
    (p!"compute_task_def", .dict [(.str p!"subtask_id", .str p!"01020304-0506-0708-090a-0b0c0d0e0f10")]),
    (p!"want_to_compute_task", .msg .WantToComputeTask (.int 2001) (.int 1) (.bool false) .none
      [(p!"provider_ethereum_address", .str p!"0xcccccccccccccccccccccccccccccccccccccccc")])]

private def deposit : PStr := p!"0xDDDDDDDDDDDDDDDDDDDDDDDDDDDDDDDDDDDDDDDD"

/-- Notes of a task are signed and verify; with another key they do not. -/
example : ∃ m', signAllNotes toyPrims.env (task (.str (p!"0x" ++ hexlify (key1 ++ key1)))) deposit key1
      = .ok m' ∧ verifyAllNotes toyPrims.env m' deposit = .ok true ∧
    ∃ m2, signAllNotes toyPrims.env (task (.str (p!"0x" ++ hexlify (key1 ++ key1)))) deposit
      (List.replicate 32 8) = .ok m2 ∧ verifyAllNotes toyPrims.env m2 deposit = .ok false := by
  have h1 : (signAllNotes toyPrims.env (task (.str (p!"0x" ++ hexlify (key1 ++ key1)))) deposit
      key1).isOk = true := by decide +kernel
  have h2 : ((signAllNotes toyPrims.env (task (.str (p!"0x" ++ hexlify (key1 ++ key1)))) deposit
      (List.replicate 32 8)).toOption.map fun m => verifyAllNotes toyPrims.env m deposit)
        = some (.ok false) := by decide +kernel
  cases hs : signAllNotes toyPrims.env (task (.str (p!"0x" ++ hexlify (key1 ++ key1)))) deposit key1 with
  | error e => rw [hs] at h1; cases h1
  | ok m' =>
    cases hs2 : signAllNotes toyPrims.env (task (.str (p!"0x" ++ hexlify (key1 ++ key1)))) deposit
        (List.replicate 32 8) with
    | error e => rw [hs2] at h2; cases h2
    | ok m2 =>
      rw [hs2] at h2
      have hk : KeyOf (getAttr (task (.str (p!"0x" ++ hexlify (key1 ++ key1)))).attrs
          p!"requestor_ethereum_public_key") (key1 ++ key1) :=
        .text ⟨p!"0x", hexlify (key1 ++ key1), rfl, by simp, Or.inl (hexText_hexlify _)⟩
      refine ⟨m', rfl, requestor_notes_verify toyPrims toyK_length _ m' deposit key1 (key1 ++ key1) rfl
        hk (toyPrims_law key1 (by decide)) hs, m2, rfl, ?_⟩
      exact Option.some.inj h2

/-- A result to verify from a provider who gave the address `addr`. -/
private def verdictAsked (addr : PStr) : Msg where
  cls := .SubtaskResultsVerify
  ty := .int 4017
  ts := .int 1
  enc := .bool false
  sig := .none
  attrs := [(p!"subtask_results_rejected", .msg .SubtaskResultsRejected (.int 2012) (.int 1) (.bool false)
    .none [(p!"report_computed_task", .msg .ReportComputedTask (.int 2008) (.int 1) (.bool false) .none
      [(p!"task_to_compute", .msg .TaskToCompute (.int 2002) (.int 1) (.bool false) .none
        [(p!"price", .int 1000),
         (p!"compute_task_def",
            .dict [(.str p!"subtask_id", .str p!"01020304-0506-0708-090a-0b0c0d0e0f10")]),
         (p!"want_to_compute_task", .msg .WantToComputeTask (.int 2001) (.int 1) (.bool false) .none
          [(p!"provider_ethereum_address", .str addr)])])])])]

private def small : PStr := '0' :: 'x' :: hexlify ((toyK (key1 ++ key1)).drop 12)

/-- C71 refuted for other spellings: a provider who gave its address in small letters signs the note of a
`SubtaskResultsVerify` with the right key, and the note does not verify; with the checksummed
spelling of the same address it does. -/
theorem srv_note_spelling_refuted :
    ∃ (P : EthPrims) (priv pub : Bytes) (m m2 : Msg) (n n2 : Note) (contract : PStr),
      EcPair P priv pub ∧ (∀ b, (P.keccak b).length = 32) ∧
      srvConcentNote m contract = .ok n ∧ srvConcentNote m2 contract = .ok n2 ∧
      Address n.addressFrom ((P.keccak pub).drop 12) ∧ Address n2.addressFrom ((P.keccak pub).drop 12) ∧
      ((signSrvNote P.env m contract priv).toOption.map fun x => verifySrvNote P.env x contract)
        = some (.ok false) ∧
      ((signSrvNote P.env m2 contract priv).toOption.map fun x => verifySrvNote P.env x contract)
        = some (.ok true) := by
  refine ⟨toyPrims, key1, key1 ++ key1, verdictAsked small, verdictAsked (keyAddress toyK (key1 ++ key1)),
    ⟨small, deposit, .int 1000, p!"01020304-0506-0708-090a-0b0c0d0e0f10", deposit⟩,
    ⟨keyAddress toyK (key1 ++ key1), deposit, .int 1000, p!"01020304-0506-0708-090a-0b0c0d0e0f10", deposit⟩,
    deposit, toyPrims_law key1 (by decide), toyK_length, ?_, ?_, ?_, ?_, ?_, ?_⟩
  · decide +kernel
  · decide +kernel
  · exact ⟨_, rfl, hexText_hexlify _, by rw [List.length_drop]; exact congrArg (· - 12) (toyK_length _)⟩
  · exact address_wellformed toyK toyK_length _
  · decide +kernel
  · decide +kernel

/-! ### C70 -/

private theorem keyOf_decode {v : Val} {pk : Bytes} (h : decodeHex v = .ok pk)
    (hb : ∀ b, v ≠ .bytes b) : KeyOf v pk := by
  unfold decodeHex at h
  split at h
  · split at h
    · exact .text ⟨[], _, rfl, by simp, Or.inl ((unhexlify_iff _ _).mp h)⟩
    · cases h
  · exact absurd rfl (hb _)
  · split at h
    · rename_i he
      exact .member he ⟨[], _, rfl, by simp, Or.inl ((unhexlify_iff _ _).mp h)⟩
    · cases h
  · cases h

/-- C70: the payer's address of a loaded `TaskToCompute` is the address of the key that its `ethsig`
was checked with.  Partial: not if the key is sent as bytes, see `payer_refuted`. -/
theorem payer_is_signer_partial (K : Bytes → Bytes) (hK : ∀ b, (K b).length = 32) (E : Env)
    (dec : Bytes → Bytes → Res Bytes) (data : Bytes) (priv pub : Option Bytes) (ct : Bool) (now : Int)
    (m : Msg) (h : (load E dec (some data) priv pub ct now).2 = .ok m) (hc : m.cls = .TaskToCompute)
    (hb : ∀ b, getAttr m.attrs p!"requestor_ethereum_public_key" ≠ .bytes b) :
    ∃ (w : Msg) (pk : Bytes), w.cls = .WantToComputeTask ∧
      getAttr m.attrs p!"want_to_compute_task" = w.val ∧
      SignedBy E w (getAttr m.attrs p!"ethsig") pk ∧
      pubkeyToAddress K (getAttr m.attrs p!"requestor_ethereum_public_key") = .ok (keyAddress K pk) := by
  obtain ⟨⟨w, h1, h2, pk, h3, h4⟩, _⟩ := loaded_ttc_partial E dec data priv pub ct now m h hc
  exact ⟨w, pk, h1, h2, h4, (address_decision K hK _ _).mpr ⟨pk, keyOf_decode h3 hb, rfl⟩⟩

/-- C70: with the key sent as bytes (hexadecimal digits in ASCII) the payer's address is the one of the
digits, not of the key they denote (unless the hashes of these two collide). -/
theorem payer_bytes_key (K : Bytes → Bytes) (hK : ∀ b, (K b).length = 32) (b pk : Bytes)
    (h : decodeHex (.bytes b) = .ok pk) (hne : pk ≠ []) :
    ∃ a, pubkeyToAddress K (.bytes b) = .ok a ∧ b ≠ pk ∧
      (a = keyAddress K pk → (K b).drop 12 = (K pk).drop 12) := by
  refine ⟨keyAddress K b, (address_decision K hK _ _).mpr ⟨b, .bytes, rfl⟩, ?_⟩
  have hl := hexText_length ((unhexlify_iff _ _).mp h)
  rw [List.length_map] at hl
  have hbp : b ≠ pk := by
    intro e
    have := List.length_pos_iff.mpr hne
    rw [e] at hl
    omega
  refine ⟨hbp, fun hc => eip55_inj K ?_ ?_ hc⟩ <;> rw [List.length_drop, hK]

private def nestedOffer : Val :=
  .list [.str p!"want_to_compute_task", .list [.bool false, .list
    [.list [.int 2001, .int 1500000000, .bool false], .bytes [], .list []]]]

private def offerMsg : Msg :=
  ⟨.WantToComputeTask, .int 2001, .int 1500000000, .bool false, .bytes [],
    Cls.WantToComputeTask.payload.map fun n => (n, if n = p!"num_subtasks" then .int 1 else
      if n = p!"concent_enabled" then .bool false else .none)⟩

private def offerSig : Val :=
  .bytes ((toyEnv.sign (List.replicate 32 7)
    (toyEnv.sha3 ((shortHash toyEnv offerMsg).toOption.getD []))).toOption.getD [])

private def taskFrame (key : Val) : Bytes :=
  ((packHeader Cls.TaskToCompute.typeId (.int 1500000000) (.bool false)).toOption.getD [] ++
    List.replicate 65 0) ++ (dumps (.list
    [nestedOffer, .list [.str p!"requestor_id", .str (hexlify (List.replicate 64 9))],
     .list [.str p!"requestor_ethereum_public_key", key],
     .list [.str p!"ethsig", offerSig],
     .list [.str p!"compute_task_def",
       .dict [(.str p!"task_id", .str (generateId 1 2 (List.replicate 64 9))),
         (.str p!"subtask_id", .str (generateId 3 4 (List.replicate 64 9)))]]])).toOption.getD []

private def loaded (key : Val) : Res Msg :=
  (load toyEnv (fun _ d => .ok d) (some (taskFrame key)) none none false 0).2

/-- C70 refuted: a `TaskToCompute` that names its key as bytes loads (its `ethsig` is checked with the
key the digits denote), and its payer's address is not the address of that key. -/
theorem payer_refuted :
    ∃ (E : Env) (K : Bytes → Bytes) (data : Bytes) (m : Msg) (pk : Bytes) (a : PStr),
      (∀ b, (K b).length = 32) ∧ (load E (fun _ d => .ok d) (some data) none none false 0).2 = .ok m ∧
      m.cls = .TaskToCompute ∧
      decodeHex (getAttr m.attrs p!"requestor_ethereum_public_key") = .ok pk ∧ pk.length = 64 ∧
      pubkeyToAddress K (getAttr m.attrs p!"requestor_ethereum_public_key") = .ok a ∧
      a ≠ keyAddress K pk := by
  have h : ((loaded (.bytes (asciiBytes (hexlify (List.replicate 64 7))))).toOption.map fun m =>
      (m.cls, getAttr m.attrs p!"requestor_ethereum_public_key"))
      = some (.TaskToCompute, .bytes (asciiBytes (hexlify (List.replicate 64 7)))) := by decide +kernel
  cases hm : loaded (.bytes (asciiBytes (hexlify (List.replicate 64 7)))) with
  | error e => rw [hm] at h; cases h
  | ok m =>
    rw [hm] at h
    simp only [Except.toOption, Option.map_some, Option.some.injEq, Prod.mk.injEq] at h
    refine ⟨toyEnv, toyK, _, m, List.replicate 64 7,
      keyAddress toyK (asciiBytes (hexlify (List.replicate 64 7))), toyK_length, hm, h.1, ?_,
      by simp, ?_, by decide +kernel⟩
    · rw [h.2]; decide +kernel
    · rw [h.2]; exact (address_decision toyK toyK_length _ _).mpr ⟨_, .bytes, rfl⟩

/-- The same task with the key as text loads. -/
example : ((loaded (.str (hexlify (List.replicate 64 7)))).toOption.map fun m =>
    (m.cls, getAttr m.attrs p!"requestor_ethereum_public_key"))
      = some (.TaskToCompute, .str (hexlify (List.replicate 64 7))) := by decide +kernel

end Verif.Props
