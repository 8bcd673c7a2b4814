import Verif.Model.Cbor
import Verif.Lemmas.Bytes
/-! # The payload codec round trip -/

set_option linter.unusedSimpArgs false

namespace Verif

mutual
/-- What a value becomes after a trip through the codec: tuples are lists, string
enum members are text, dict subclasses are dicts. -/
def Val.wireNorm (v : Val) : Val :=
  match v with
  | .list l => .list (Val.wireNormL l)
  | .tuple l => .list (Val.wireNormL l)
  | .dict d => .dict (Val.wireNormD d)
  | .tag n v => .tag n (Val.wireNorm v)
  | .enum _ s => .str s
  | .fdict _ items => .dict (Val.wireNormF items)
  | v => v
termination_by structural v
def Val.wireNormL (l : List Val) : List Val :=
  match l with
  | [] => []
  | x :: xs => Val.wireNorm x :: Val.wireNormL xs
termination_by structural l
def Val.wireNormD (d : List (Val × Val)) : List (Val × Val) :=
  match d with
  | [] => []
  | (k, x) :: xs => (Val.wireNorm k, Val.wireNorm x) :: Val.wireNormD xs
termination_by structural d
def Val.wireNormF (f : List (PStr × Val)) : List (Val × Val) :=
  match f with
  | [] => []
  | (k, x) :: xs => (.str k, Val.wireNorm x) :: Val.wireNormF xs
termination_by structural f
end

/-- No key equals (in the sense of Python dicts) a later one, all hashable. -/
def keysOk : List (Val × Val) → Bool
  | [] => true
  | (k, _) :: rest => k.hashable && rest.all (fun kv => !k.keyEq kv.1) && keysOk rest

mutual
/-- Plain data the codec can carry: no library instances, and dict keys that are
still distinct and hashable after the trip. -/
def Val.wireOk (v : Val) : Bool :=
  match v with
  | .list l => Val.wireOkL l
  | .tuple l => Val.wireOkL l
  | .dict d => Val.wireOkD d && keysOk (Val.wireNormD d)
  | .tag n v => n != 2 && n != 3 && Val.wireOk v
  | .enum e _ => e.isStringEnum
  | .fdict _ items => Val.wireOkF items && keysOk (Val.wireNormF items)
  | .cont _ _ => false
  | .mask _ => false
  | .msg .. => false
  | _ => true
termination_by structural v
def Val.wireOkL (l : List Val) : Bool :=
  match l with
  | [] => true
  | x :: xs => Val.wireOk x && Val.wireOkL xs
termination_by structural l
def Val.wireOkD (d : List (Val × Val)) : Bool :=
  match d with
  | [] => true
  | (k, x) :: xs => Val.wireOk k && Val.wireOk x && Val.wireOkD xs
termination_by structural d
def Val.wireOkF (f : List (PStr × Val)) : Bool :=
  match f with
  | [] => true
  | (_, x) :: xs => Val.wireOk x && Val.wireOkF xs
termination_by structural f
end

/-! ### Heads -/

theorem cborHead_pos (m n : Nat) : 0 < (cborHead m n).length := by
  unfold cborHead
  split
  · simp
  split
  · simp
  split
  · simp
  split <;> simp

theorem takeBytes_append (a b : Bytes) {n : Nat} (h : a.length = n) :
    takeBytes n (a ++ b) = .ok (a, b) := by
  subst h
  unfold takeBytes
  rw [if_neg (by simp)]
  simp

/-- Reading a head back. -/
theorem cborHead_read (m n : Nat) (hm : m < 8) (hn : n < 2 ^ 64) (rest : Bytes) :
    ∃ b0 r, cborHead m n ++ rest = b0 :: r ∧ b0.toNat / 32 = m ∧ b0.toNat % 32 ≠ 31 ∧
      cborArg (b0.toNat % 32) r = .ok (n, rest) := by
  unfold cborHead
  by_cases h1 : n ≤ 23
  · refine ⟨UInt8.ofNat (m * 32 + n), rest, by simp [h1], ?_, ?_, ?_⟩ <;>
      rw [toNat_ofNat_lt (by omega)]
    · omega
    · omega
    · rw [show (m * 32 + n) % 32 = n by omega]; simp [cborArg, h1]
  by_cases h2 : n ≤ 0xff
  · refine ⟨UInt8.ofNat (m * 32 + 24), toBE 1 n ++ rest, by simp [h1, h2], ?_, ?_, ?_⟩ <;>
      rw [toNat_ofNat_lt (by omega)]
    · omega
    · omega
    · rw [show (m * 32 + 24) % 32 = 24 by omega]
      simp only [cborArg, takeBytes_append _ _ (toBE_length _ _)]
      simp [takeBytes_append _ _ (toBE_length _ _), Except.map, ofBE_toBE (n := 1) (x := n) (by omega)]
  by_cases h3 : n ≤ 0xffff
  · refine ⟨UInt8.ofNat (m * 32 + 25), toBE 2 n ++ rest, by simp [h1, h2, h3], ?_, ?_, ?_⟩ <;>
      rw [toNat_ofNat_lt (by omega)]
    · omega
    · omega
    · rw [show (m * 32 + 25) % 32 = 25 by omega]
      simp [cborArg, takeBytes_append _ _ (toBE_length _ _), Except.map,
        ofBE_toBE (n := 2) (x := n) (by omega)]
  by_cases h4 : n ≤ 0xffffffff
  · refine ⟨UInt8.ofNat (m * 32 + 26), toBE 4 n ++ rest, by simp [h1, h2, h3, h4], ?_, ?_, ?_⟩ <;>
      rw [toNat_ofNat_lt (by omega)]
    · omega
    · omega
    · rw [show (m * 32 + 26) % 32 = 26 by omega]
      simp [cborArg, takeBytes_append _ _ (toBE_length _ _), Except.map,
        ofBE_toBE (n := 4) (x := n) (by omega)]
  · refine ⟨UInt8.ofNat (m * 32 + 27), toBE 8 n ++ rest, by simp [h1, h2, h3, h4], ?_, ?_, ?_⟩ <;>
      rw [toNat_ofNat_lt (by omega)]
    · omega
    · omega
    · rw [show (m * 32 + 27) % 32 = 27 by omega]
      simp [cborArg, takeBytes_append _ _ (toBE_length _ _), Except.map,
        ofBE_toBE (n := 8) (x := n) (by omega)]

/-- The decoder's continuation after a definite head of major type `m`. -/
def cborBody (f m n : Nat) (r : Bytes) : Res (Val × Bytes) :=
  if m = 0 then .ok (.int (Int.ofNat n), r)
  else if m = 1 then .ok (.int (Int.negSucc n), r)
  else if m = 2 then
    match takeBytes n r with
    | .error e => .error e
    | .ok (x, r') => .ok (.bytes x, r')
  else if m = 3 then
    match takeBytes n r with
    | .error e => .error e
    | .ok (x, r') => (cborText x).map (·, r')
  else if m = 4 then
    match cborDecN f n r with
    | .error e => .error e
    | .ok (l, r') => .ok (.list l, r')
  else if m = 5 then
    match cborDecMapN f n [] r with
    | .error e => .error e
    | .ok (d, r') => .ok (.dict d, r')
  else
    match cborDec f r with
    | .error e => .error e
    | .ok (v, r') => (tagify n v).map (·, r')

theorem cborDec_head (f m n : Nat) (hm : m < 7) (hn : n < 2 ^ 64) (rest : Bytes) :
    cborDec (f + 1) (cborHead m n ++ rest) = cborBody f m n rest := by
  obtain ⟨b0, r, h, hmaj, hinfo, harg⟩ := cborHead_read m n (by omega) hn rest
  rw [h]
  unfold cborDec
  dsimp only
  rw [hmaj, if_neg (by omega), if_neg hinfo, harg]
  rfl

theorem cborHeadR_ok {m n : Nat} {h : Bytes} (e : cborHeadR m n = .ok h) :
    n < 2 ^ 64 ∧ h = cborHead m n := by
  unfold cborHeadR at e
  split at e
  · exact ⟨by assumption, by injection e with e; exact e.symm⟩
  · cases e

theorem withHead_ok {a b : Res Bytes} {x : Bytes} (e : withHead a b = .ok x) :
    ∃ p q, a = .ok p ∧ b = .ok q ∧ x = p ++ q := by
  unfold withHead at e
  split at e
  · rename_i p q
    exact ⟨p, q, rfl, rfl, by injection e with e; exact e.symm⟩
  · cases e
  · cases e

theorem cborStr_ok {m : Nat} {s b : Bytes} (e : cborStr m s = .ok b) :
    s.length < 2 ^ 64 ∧ b = cborHead m s.length ++ s := by
  unfold cborStr at e
  split at e
  · cases e
  · rename_i h hh
    obtain ⟨h1, h2⟩ := cborHeadR_ok hh
    injection e with e
    exact ⟨h1, by rw [← e, h2]⟩

theorem ofBE_bigBytes (n : Nat) : ofBE (bigBytes n) = n :=
  ofBE_toBE (lt_pow_byteLen n n (Nat.le_refl n))

theorem cborDec_bytes (f : Nat) (s rest : Bytes) (h : s.length < 2 ^ 64) :
    cborDec (f + 1) (cborHead 2 s.length ++ (s ++ rest)) = .ok (.bytes s, rest) := by
  rw [cborDec_head _ _ _ (by omega) h]
  simp [cborBody, takeBytes_append s rest rfl]

theorem cborDec_text (f : Nat) (s : PStr) (rest : Bytes) (h : (utf8Enc s).length < 2 ^ 64) :
    cborDec (f + 1) (cborHead 3 (utf8Enc s).length ++ (utf8Enc s ++ rest)) = .ok (.str s, rest) := by
  rw [cborDec_head _ _ _ (by omega) h]
  simp [cborBody, takeBytes_append (utf8Enc s) rest rfl, cborText, utf8Dec_enc, Except.map]

theorem cborInt_pos {i : Int} {b : Bytes} (e : cborInt i = .ok b) : 0 < b.length := by
  unfold cborInt at e
  split at e
  all_goals
    split at e
    · injection e with e
      rw [← e]; exact cborHead_pos _ _
    · rename_i n _
      cases hs : cborStr 2 (bigBytes n) with
      | error x => rw [hs] at e; cases e
      | ok s =>
        rw [hs] at e
        simp only [Except.map] at e
        injection e with e
        rw [← e]
        have := cborHead_pos 6 2
        have := cborHead_pos 6 3
        simp only [List.length_append]; omega

theorem cborDec_int (f : Nat) (i : Int) (b rest : Bytes) (e : cborInt i = .ok b)
    (hf : 2 * b.length ≤ f) : cborDec f (b ++ rest) = .ok (.int i, rest) := by
  have hpos := cborInt_pos e
  unfold cborInt at e
  split at e
  · rename_i n
    split at e
    · injection e with e
      obtain ⟨f, rfl⟩ : ∃ g, f = g + 1 := ⟨f - 1, by omega⟩
      rw [← e, cborDec_head _ _ _ (by omega) (by assumption)]
      simp [cborBody]
    · cases hs : cborStr 2 (bigBytes n) with
      | error x => rw [hs] at e; cases e
      | ok s =>
        rw [hs] at e
        simp only [Except.map] at e
        injection e with e
        obtain ⟨h1, h2⟩ := cborStr_ok hs
        have l1 := cborHead_pos 6 2
        have l2 := cborHead_pos 2 (bigBytes n).length
        obtain ⟨f, rfl⟩ : ∃ g, f = g + 1 + 1 := by
          refine ⟨f - 2, ?_⟩
          rw [← e, h2] at hf
          simp only [List.length_append] at hf
          omega
        rw [← e, h2, List.append_assoc, List.append_assoc, cborDec_head _ _ _ (by omega) (by omega)]
        simp only [cborBody]
        rw [cborDec_bytes _ _ _ h1]
        simp [tagify, Except.map, ofBE_bigBytes]
  · rename_i n
    split at e
    · injection e with e
      obtain ⟨f, rfl⟩ : ∃ g, f = g + 1 := ⟨f - 1, by omega⟩
      rw [← e, cborDec_head _ _ _ (by omega) (by assumption)]
      simp [cborBody]
    · cases hs : cborStr 2 (bigBytes n) with
      | error x => rw [hs] at e; cases e
      | ok s =>
        rw [hs] at e
        simp only [Except.map] at e
        injection e with e
        obtain ⟨h1, h2⟩ := cborStr_ok hs
        have l1 := cborHead_pos 6 3
        have l2 := cborHead_pos 2 (bigBytes n).length
        obtain ⟨f, rfl⟩ : ∃ g, f = g + 1 + 1 := by
          refine ⟨f - 2, ?_⟩
          rw [← e, h2] at hf
          simp only [List.length_append] at hf
          omega
        rw [← e, h2, List.append_assoc, List.append_assoc, cborDec_head _ _ _ (by omega) (by omega)]
        simp only [cborBody]
        rw [cborDec_bytes _ _ _ h1]
        simp [tagify, Except.map, ofBE_bigBytes]

theorem dictSet_append {k v : Val} {acc : List (Val × Val)}
    (h : acc.all (fun kv => !kv.1.keyEq k) = true) : dictSet k v acc = acc ++ [(k, v)] := by
  induction acc with
  | nil => rfl
  | cons a as ih =>
    obtain ⟨k', w⟩ := a
    simp only [List.all_cons, Bool.and_eq_true, Bool.not_eq_true'] at h
    simp [dictSet, h.1, ih h.2]

/-- All keys of `a` differ from all keys of `b`. -/
def keysSep (a b : List (Val × Val)) : Bool :=
  a.all fun x => b.all fun y => !x.1.keyEq y.1

theorem keysSep_step {acc rest : List (Val × Val)} {k v : Val}
    (h : keysSep acc ((k, v) :: rest) = true)
    (hk : rest.all (fun kv => !k.keyEq kv.1) = true) :
    dictSet k v acc = acc ++ [(k, v)] ∧ keysSep (acc ++ [(k, v)]) rest = true := by
  simp only [keysSep, List.all_eq_true, List.mem_cons, forall_eq_or_imp] at *
  constructor
  · apply dictSet_append
    simp only [List.all_eq_true]
    exact fun x hx => (h x hx).1
  · intro x hx y hy
    simp only [List.mem_append, List.mem_singleton] at hx
    rcases hx with hx | rfl
    · exact (h x hx).2 y hy
    · exact hk y hy

mutual
/-- Every encoding is non-empty. -/
theorem cborEnc_pos (v : Val) (b : Bytes) (e : cborEnc v = .ok b) : 0 < b.length := by
  cases v with
  | none => simp only [cborEnc] at e; injection e with e; simp [← e]
  | bool x => simp only [cborEnc] at e; injection e with e; simp [← e]
  | int i => simp only [cborEnc] at e; exact cborInt_pos e
  | float x => simp only [cborEnc] at e; injection e with e; simp [← e]
  | str s =>
    simp only [cborEnc] at e
    obtain ⟨_, rfl⟩ := cborStr_ok e
    have := cborHead_pos 3 (utf8Enc s).length
    simp only [List.length_append]; omega
  | bytes s =>
    simp only [cborEnc] at e
    obtain ⟨_, rfl⟩ := cborStr_ok e
    have := cborHead_pos 2 s.length
    simp only [List.length_append]; omega
  | list l =>
    simp only [cborEnc] at e
    obtain ⟨p, q, h1, h2, rfl⟩ := withHead_ok e
    obtain ⟨_, rfl⟩ := cborHeadR_ok h1
    have := cborHead_pos 4 l.length
    simp only [List.length_append]; omega
  | tuple l =>
    simp only [cborEnc] at e
    obtain ⟨p, q, h1, h2, rfl⟩ := withHead_ok e
    obtain ⟨_, rfl⟩ := cborHeadR_ok h1
    have := cborHead_pos 4 l.length
    simp only [List.length_append]; omega
  | dict l =>
    simp only [cborEnc] at e
    obtain ⟨p, q, h1, h2, rfl⟩ := withHead_ok e
    obtain ⟨_, rfl⟩ := cborHeadR_ok h1
    have := cborHead_pos 5 l.length
    simp only [List.length_append]; omega
  | tag n v =>
    simp only [cborEnc] at e
    split at e
    · cases e
    obtain ⟨p, q, h1, h2, rfl⟩ := withHead_ok e
    obtain ⟨_, rfl⟩ := cborHeadR_ok h1
    have := cborHead_pos 6 n
    simp only [List.length_append]; omega
  | enum x s =>
    simp only [cborEnc] at e
    split at e
    · obtain ⟨_, rfl⟩ := cborStr_ok e
      have := cborHead_pos 3 (utf8Enc s).length
      simp only [List.length_append]; omega
    · cases e
  | cont _ _ => simp [cborEnc] at e
  | fdict c l =>
    simp only [cborEnc] at e
    obtain ⟨p, q, h1, h2, rfl⟩ := withHead_ok e
    obtain ⟨_, rfl⟩ := cborHeadR_ok h1
    have := cborHead_pos 5 l.length
    simp only [List.length_append]; omega
  | mask _ => simp [cborEnc] at e
  | msg _ _ _ _ _ _ => simp [cborEnc] at e
end

theorem cborStr_pos {m : Nat} {s b : Bytes} (e : cborStr m s = .ok b) : 0 < b.length := by
  obtain ⟨_, rfl⟩ := cborStr_ok e
  have := cborHead_pos m s.length
  simp only [List.length_append]; omega

mutual
/-- Decoding an encoding gives the normalised value and leaves what follows. -/
theorem cborDec_enc (v : Val) (b rest : Bytes) (f : Nat) (hw : v.wireOk = true)
    (e : cborEnc v = .ok b) (hf : 2 * b.length ≤ f) :
    cborDec f (b ++ rest) = .ok (v.wireNorm, rest) := by
  have hpos := cborEnc_pos v b e
  match v, hw, e with
  | .none, _, e =>
    simp only [cborEnc] at e; injection e with e
    obtain ⟨f, rfl⟩ : ∃ g, f = g + 1 := ⟨f - 1, by omega⟩
    rw [← e]; rfl
  | .bool x, _, e =>
    simp only [cborEnc] at e; injection e with e
    obtain ⟨f, rfl⟩ : ∃ g, f = g + 1 := ⟨f - 1, by omega⟩
    rw [← e]; cases x <;> rfl
  | .int i, _, e =>
    simp only [cborEnc] at e
    rw [cborDec_int f i b rest e hf]; rfl
  | .float x, _, e =>
    simp only [cborEnc] at e; injection e with e
    obtain ⟨f, rfl⟩ : ∃ g, f = g + 1 := ⟨f - 1, by omega⟩
    rw [← e, List.cons_append]
    unfold cborDec
    dsimp only
    have h64 : x.toNat < 256 ^ 8 := by have := x.toNat_lt; omega
    simp [cborSimple, takeBytes_append _ _ (toBE_length _ _), Except.map, Val.wireNorm,
      ofBE_toBE h64]
  | .str s, _, e =>
    simp only [cborEnc] at e
    obtain ⟨h1, rfl⟩ := cborStr_ok e
    obtain ⟨f, rfl⟩ : ∃ g, f = g + 1 := ⟨f - 1, by omega⟩
    rw [List.append_assoc, cborDec_text _ _ _ h1]; rfl
  | .bytes s, _, e =>
    simp only [cborEnc] at e
    obtain ⟨h1, rfl⟩ := cborStr_ok e
    obtain ⟨f, rfl⟩ : ∃ g, f = g + 1 := ⟨f - 1, by omega⟩
    rw [List.append_assoc, cborDec_bytes _ _ _ h1]; rfl
  | .list l, hw, e =>
    simp only [cborEnc] at e
    obtain ⟨p, q, h1, h2, rfl⟩ := withHead_ok e
    obtain ⟨hl, rfl⟩ := cborHeadR_ok h1
    have := cborHead_pos 4 l.length
    simp only [List.length_append] at hf
    obtain ⟨f, rfl⟩ : ∃ g, f = g + 1 := ⟨f - 1, by omega⟩
    rw [List.append_assoc, cborDec_head _ _ _ (by omega) hl]
    simp only [cborBody]
    rw [cborDecN_enc l q rest f (by simpa [Val.wireOk] using hw) h2 (by omega)]
    simp [Val.wireNorm]
  | .tuple l, hw, e =>
    simp only [cborEnc] at e
    obtain ⟨p, q, h1, h2, rfl⟩ := withHead_ok e
    obtain ⟨hl, rfl⟩ := cborHeadR_ok h1
    have := cborHead_pos 4 l.length
    simp only [List.length_append] at hf
    obtain ⟨f, rfl⟩ : ∃ g, f = g + 1 := ⟨f - 1, by omega⟩
    rw [List.append_assoc, cborDec_head _ _ _ (by omega) hl]
    simp only [cborBody]
    rw [cborDecN_enc l q rest f (by simpa [Val.wireOk] using hw) h2 (by omega)]
    simp [Val.wireNorm]
  | .dict d, hw, e =>
    simp only [cborEnc] at e
    obtain ⟨p, q, h1, h2, rfl⟩ := withHead_ok e
    obtain ⟨hl, rfl⟩ := cborHeadR_ok h1
    have := cborHead_pos 5 d.length
    simp only [List.length_append] at hf
    simp only [Val.wireOk, Bool.and_eq_true] at hw
    obtain ⟨f, rfl⟩ : ∃ g, f = g + 1 := ⟨f - 1, by omega⟩
    rw [List.append_assoc, cborDec_head _ _ _ (by omega) hl]
    simp only [cborBody]
    rw [cborDecD_enc d q rest f [] hw.1 hw.2 rfl h2 (by omega)]
    simp [Val.wireNorm]
  | .tag n v, hw, e =>
    simp only [Val.wireOk, Bool.and_eq_true, bne_iff_ne] at hw
    simp only [cborEnc] at e
    split at e
    · cases e
    obtain ⟨p, q, h1, h2, rfl⟩ := withHead_ok e
    obtain ⟨hl, rfl⟩ := cborHeadR_ok h1
    have := cborHead_pos 6 n
    simp only [List.length_append] at hf
    obtain ⟨f, rfl⟩ : ∃ g, f = g + 1 := ⟨f - 1, by omega⟩
    rw [List.append_assoc, cborDec_head _ _ _ (by omega) hl]
    simp only [cborBody]
    rw [cborDec_enc v q rest f hw.2 h2 (by omega)]
    simp [Val.wireNorm, tagify, hw.1.1, hw.1.2, Except.map]
  | .enum x s, hw, e =>
    simp only [Val.wireOk] at hw
    simp only [cborEnc, hw, if_true] at e
    obtain ⟨h1, rfl⟩ := cborStr_ok e
    obtain ⟨f, rfl⟩ : ∃ g, f = g + 1 := ⟨f - 1, by omega⟩
    rw [List.append_assoc, cborDec_text _ _ _ h1]; rfl
  | .fdict c d, hw, e =>
    simp only [cborEnc] at e
    obtain ⟨p, q, h1, h2, rfl⟩ := withHead_ok e
    obtain ⟨hl, rfl⟩ := cborHeadR_ok h1
    have := cborHead_pos 5 d.length
    simp only [List.length_append] at hf
    simp only [Val.wireOk, Bool.and_eq_true] at hw
    obtain ⟨f, rfl⟩ : ∃ g, f = g + 1 := ⟨f - 1, by omega⟩
    rw [List.append_assoc, cborDec_head _ _ _ (by omega) hl]
    simp only [cborBody]
    rw [cborDecF_enc d q rest f [] hw.1 hw.2 rfl h2 (by omega)]
    simp [Val.wireNorm]
  | .cont _ _, _, e => simp [cborEnc] at e
  | .mask _, _, e => simp [cborEnc] at e
  | .msg _ _ _ _ _ _, _, e => simp [cborEnc] at e
theorem cborDecN_enc (l : List Val) (b rest : Bytes) (f : Nat) (hw : Val.wireOkL l = true)
    (e : cborEncL l = .ok b) (hf : 2 * b.length + 1 ≤ f) :
    cborDecN f l.length (b ++ rest) = .ok (Val.wireNormL l, rest) := by
  obtain ⟨f, rfl⟩ : ∃ g, f = g + 1 := ⟨f - 1, by omega⟩
  match l, hw, e with
  | [], _, e =>
    simp only [cborEncL] at e; injection e with e
    rw [← e]; simp [cborDecN, Val.wireNormL]
  | x :: xs, hw, e =>
    simp only [cborEncL] at e
    obtain ⟨p, q, h1, h2, rfl⟩ := withHead_ok e
    simp only [Val.wireOkL, Bool.and_eq_true] at hw
    have := cborEnc_pos x p h1
    simp only [List.length_append] at hf
    rw [List.length_cons, List.append_assoc, cborDecN]
    rw [cborDec_enc x p (q ++ rest) f hw.1 h1 (by omega)]
    simp only
    rw [cborDecN_enc xs q rest f hw.2 h2 (by omega)]
    simp [Val.wireNormL]
theorem cborDecD_enc (d : List (Val × Val)) (b rest : Bytes) (f : Nat) (acc : List (Val × Val))
    (hw : Val.wireOkD d = true) (hk : keysOk (Val.wireNormD d) = true)
    (hs : keysSep acc (Val.wireNormD d) = true)
    (e : cborEncD d = .ok b) (hf : 2 * b.length + 1 ≤ f) :
    cborDecMapN f d.length acc (b ++ rest) = .ok (acc ++ Val.wireNormD d, rest) := by
  obtain ⟨f, rfl⟩ : ∃ g, f = g + 1 := ⟨f - 1, by omega⟩
  match d, hw, e with
  | [], _, e =>
    simp only [cborEncD] at e; injection e with e
    rw [← e]; simp [cborDecMapN, Val.wireNormD]
  | (k, x) :: xs, hw, e =>
    simp only [cborEncD] at e
    obtain ⟨p, q', h1, h23, rfl⟩ := withHead_ok e
    obtain ⟨q, r, h2, h3, rfl⟩ := withHead_ok h23
    simp only [Val.wireOkD, Bool.and_eq_true] at hw
    simp only [Val.wireNormD] at hk hs ⊢
    simp only [keysOk, Bool.and_eq_true] at hk
    have := cborEnc_pos k p h1
    have := cborEnc_pos x q h2
    simp only [List.length_append] at hf
    rw [List.length_cons, List.append_assoc, List.append_assoc, cborDecMapN]
    rw [cborDec_enc k p (q ++ (r ++ rest)) f hw.1.1 h1 (by omega)]
    simp only
    rw [cborDec_enc x q (r ++ rest) f hw.1.2 h2 (by omega)]
    simp only
    obtain ⟨s1, s2⟩ := keysSep_step hs hk.1.2
    rw [if_pos hk.1.1, s1, cborDecD_enc xs r rest f _ hw.2 hk.2 s2 h3 (by omega)]
    simp
theorem cborDecF_enc (d : List (PStr × Val)) (b rest : Bytes) (f : Nat) (acc : List (Val × Val))
    (hw : Val.wireOkF d = true) (hk : keysOk (Val.wireNormF d) = true)
    (hs : keysSep acc (Val.wireNormF d) = true)
    (e : cborEncF d = .ok b) (hf : 2 * b.length + 1 ≤ f) :
    cborDecMapN f d.length acc (b ++ rest) = .ok (acc ++ Val.wireNormF d, rest) := by
  obtain ⟨f, rfl⟩ : ∃ g, f = g + 1 := ⟨f - 1, by omega⟩
  match d, hw, e with
  | [], _, e =>
    simp only [cborEncF] at e; injection e with e
    rw [← e]; simp [cborDecMapN, Val.wireNormF]
  | (k, x) :: xs, hw, e =>
    simp only [cborEncF] at e
    obtain ⟨p, q', h1, h23, rfl⟩ := withHead_ok e
    obtain ⟨q, r, h2, h3, rfl⟩ := withHead_ok h23
    simp only [Val.wireOkF, Bool.and_eq_true] at hw
    simp only [Val.wireNormF] at hk hs ⊢
    simp only [keysOk, Bool.and_eq_true] at hk
    have hp := cborStr_pos h1
    have := cborEnc_pos x q h2
    obtain ⟨hl, rfl⟩ := cborStr_ok h1
    simp only [List.length_append] at hf hp
    obtain ⟨f, rfl⟩ : ∃ g, f = g + 1 := ⟨f - 1, by omega⟩
    rw [List.length_cons, List.append_assoc, List.append_assoc, List.append_assoc, cborDecMapN]
    rw [cborDec_text _ _ _ hl]
    simp only
    rw [cborDec_enc x q (r ++ rest) (f + 1) hw.1 h2 (by omega)]
    simp only
    obtain ⟨s1, s2⟩ := keysSep_step hs hk.1.2
    rw [if_pos hk.1.1, s1, cborDecF_enc xs r rest (f + 1) _ hw.2 hk.2 s2 h3 (by omega)]
    simp
end

/-- `loads (dumps v ++ anything)` is `v` up to the codec's normalisation. -/
theorem loads_dumps (v : Val) (b rest : Bytes) (hw : v.wireOk = true) (e : dumps v = .ok b) :
    loads (b ++ rest) = .ok v.wireNorm := by
  unfold dumps at e
  split at e
  · rename_i b' hb
    injection e with e
    subst e
    unfold loads
    rw [cborDec_enc v b' rest _ hw hb (by simp; omega)]
  · cases e

end Verif
