import Verif.Lemmas.Address
import Verif.Lemmas.Attrs
import Verif.Lemmas.Frame
import Verif.Lemmas.Notes
import Verif.Lemmas.Uuid
import Verif.Lemmas.Ownership
import Verif.Spec.Promissory
/-!
# C47, C48: promissory notes
-/

set_option linter.unusedSimpArgs false

namespace Verif.Props

open Verif Spec

/-! ### C47 -/

private theorem denotes_unique {s : PStr} {a b : Bytes} (h1 : Denotes s a) (h2 : Denotes s b) :
    a = b := by
  obtain ⟨t, e, h⟩ := h1
  obtain ⟨t', e', h'⟩ := h2
  rw [e] at e'
  injection e' with _ e'
  injection e' with _ e'
  subst e'
  exact hexText_unique h h'

/-- C47: the message of a well-formed note is the hexadecimal form of 124 bytes: contract, payer,
payee (20 each), amount (32, big-endian) and subtask (16, big-endian, and 16 zeros). -/
theorem promissory_layout (n : Note) (p : Promise) (h : Says n p) :
    ∃ s b, n.hexmsg = .ok s ∧ Denotes s b ∧ b.length = 124 ∧ b.take 20 = p.contract ∧
      (b.drop 20).take 20 = p.payer ∧ (b.drop 40).take 20 = p.payee ∧
      bigEndian ((b.drop 60).take 32) = p.amount ∧ bigEndian ((b.drop 92).take 16) = p.subtask ∧
      b.drop 108 = List.replicate 16 0 := by
  obtain ⟨⟨tc, ec, hc, lc⟩, ⟨tf, ef, hf, lf⟩, ⟨tt, et, ht, lt⟩, ha, hr, hs⟩ := h
  have hab : amountBytes n.amount = .ok (toBE 32 p.amount) := by
    rw [ha]
    simp only [amountBytes, Val.structInt]
    rw [if_neg (by omega)]
    rfl
  have hu := uuidText_lt hs
  replace hs := (parseUuid_iff _ _).mpr hs
  refine ⟨p!"0x" ++ tc ++ tf ++ tt ++ hexlify (toBE 32 p.amount) ++ hexlify (uuidToBytes32 p.subtask),
    p.contract ++ p.payer ++ p.payee ++ toBE 32 p.amount ++ uuidToBytes32 p.subtask, ?_, ?_, ?_⟩
  · unfold Note.hexmsg
    rw [hab, hs, ec, ef, et]
    rfl
  · refine ⟨tc ++ tf ++ tt ++ hexlify (toBE 32 p.amount) ++ hexlify (uuidToBytes32 p.subtask), by simp, ?_⟩
    exact hexText_append (hexText_append (hexText_append (hexText_append hc hf) ht)
      (hexText_hexlify _)) (hexText_hexlify _)
  · generalize p.contract = c at *
    generalize p.payer = f at *
    generalize p.payee = t at *
    have hul : (uuidToBytes32 p.subtask).length = 32 := by simp [uuidToBytes32]
    have d20 : ∀ x y : Bytes, x.length = 20 → (x ++ y).drop 20 = y := fun x y h => by
      rw [← h, List.drop_left]
    have e20 : c ++ f ++ t ++ toBE 32 p.amount ++ uuidToBytes32 p.subtask
        = c ++ (f ++ (t ++ (toBE 32 p.amount ++ uuidToBytes32 p.subtask))) := by simp
    have e40 : (c ++ f ++ t ++ toBE 32 p.amount ++ uuidToBytes32 p.subtask).drop 40
        = t ++ (toBE 32 p.amount ++ uuidToBytes32 p.subtask) := by
      rw [e20, show 40 = 20 + 20 from rfl, ← List.drop_drop, d20 c _ lc, d20 f _ lf]
    have e60 : (c ++ f ++ t ++ toBE 32 p.amount ++ uuidToBytes32 p.subtask).drop 60
        = toBE 32 p.amount ++ uuidToBytes32 p.subtask := by
      rw [show 60 = 40 + 20 from rfl, ← List.drop_drop, e40, d20 t _ lt]
    have e92 : (c ++ f ++ t ++ toBE 32 p.amount ++ uuidToBytes32 p.subtask).drop 92
        = uuidToBytes32 p.subtask := by
      rw [show 92 = 60 + 32 from rfl, ← List.drop_drop, e60, List.drop_left' (by simp)]
    refine ⟨by simp [lc, lf, lt, hul], ?_, ?_, ?_, ?_, ?_, ?_⟩
    · rw [e20, List.take_left' lc]
    · rw [e20, d20 c _ lc, List.take_left' lf]
    · rw [e40, List.take_left' lt]
    · rw [e60, List.take_left' (by simp), bigEndian_eq]
      exact ofBE_toBE (by omega)
    · rw [e92, show (uuidToBytes32 p.subtask).take 16 = toBE 16 p.subtask from by
        simp [uuidToBytes32], bigEndian_eq]
      exact ofBE_toBE (by omega)
    · rw [show 108 = 92 + 16 from rfl, ← List.drop_drop, e92]
      simp [uuidToBytes32]

/-- C47: notes whose messages are the same bytes say the same. -/
theorem promissory_unambiguous (n1 n2 : Note) (p1 p2 : Promise) (h1 : Says n1 p1) (h2 : Says n2 p2)
    (s1 s2 : PStr) (b : Bytes) (m1 : n1.hexmsg = .ok s1) (m2 : n2.hexmsg = .ok s2)
    (d1 : Denotes s1 b) (d2 : Denotes s2 b) : p1 = p2 := by
  obtain ⟨t1, b1, e1, f1, _, g1⟩ := promissory_layout n1 p1 h1
  obtain ⟨t2, b2, e2, f2, _, g2⟩ := promissory_layout n2 p2 h2
  rw [m1] at e1
  rw [m2] at e2
  injection e1 with e1
  injection e2 with e2
  subst e1 e2
  have := denotes_unique f1 d1
  have := denotes_unique f2 d2
  subst b1 b2
  obtain ⟨c1, c2, c3, c4, c5, _⟩ := g1
  obtain ⟨k1, k2, k3, k4, k5, _⟩ := g2
  cases p1
  cases p2
  simp_all

/-- C47: in particular for equal message texts. -/
theorem promissory_text_unambiguous (n1 n2 : Note) (p1 p2 : Promise) (h1 : Says n1 p1)
    (h2 : Says n2 p2) (h : n1.hexmsg = n2.hexmsg) : p1 = p2 := by
  obtain ⟨t1, b1, e1, f1, _⟩ := promissory_layout n1 p1 h1
  exact promissory_unambiguous n1 n2 p1 p2 h1 h2 t1 t1 b1 e1 (h ▸ e1) f1 f1

/-- C47: amounts that are not a uint256 are refused, whatever else the note says. -/
theorem promissory_amount_refused (n : Note) (i : Int) (ha : n.amount = .int i)
    (hi : i < 0 ∨ 2 ^ 256 ≤ i) : n.hexmsg = .error .overflowError := by
  unfold Note.hexmsg
  rw [ha]
  simp only [amountBytes, Val.structInt]
  rw [if_pos hi]

/-! ### C48 -/

/-- C48: what makes a signature valid. -/
theorem sig_valid_decision (X : EthEnv) (n : Note) (sig : Val) :
    n.sigValid X sig = .ok true ↔ ∃ v r s h, sig.iter = some [v, r, s] ∧ n.hash X = .ok h ∧
      X.recoverHash h v r s = .ok n.addressFrom := by
  unfold Note.sigValid
  constructor
  · intro h
    split at h
    · cases h
    split at h
    · rename_i v r s hi
      split at h
      · cases h
      rename_i hh hhash
      split at h
      · cases h
      rename_i a ha
      injection h with h
      rw [beq_iff_eq] at h
      exact ⟨v, r, s, hh, hi, hhash, by rw [ha, h]⟩
    · cases h
  · rintro ⟨v, r, s, h, hi, hh, hr⟩
    have ht : sig.truthy = true := by
      cases sig <;> simp only [Val.iter, Option.some.injEq, reduceCtorEq] at hi <;>
        simp only [Val.truthy, Bool.not_eq_true', List.isEmpty_eq_false_iff] <;>
        (intro e; rw [e] at hi; simp at hi)
    rw [ht, hi, hh]
    simp [hr]

/-- C48: without a signature the note is not valid; a signature that does not have three parts
is a `TypeError`. -/
theorem sig_valid_refuses (X : EthEnv) (n : Note) (sig : Val) :
    (holds sig = false → n.sigValid X sig = .ok false) ∧
    (holds sig = true → (∀ v r s, sig.iter ≠ some [v, r, s]) →
      n.sigValid X sig = .error .typeError) := by
  rw [holds_eq]
  unfold Note.sigValid
  refine ⟨fun h => by rw [h]; rfl, fun h hi => ?_⟩
  rw [h]
  simp only [Bool.not_true, Bool.false_eq_true, if_false]

/-- The law of the signature scheme for one key pair: what `priv` signs recovers to `addr`. -/
def KeyPair (X : EthEnv) (priv : Bytes) (addr : PStr) : Prop :=
  ∀ h v r s, X.signHash h priv = .ok (v, r, s) →
    X.recoverHash h (.int v) (.bytes (toBE 32 r)) (.bytes (toBE 32 s)) = .ok addr

/-- C48: a note signed by the payer's key is valid. -/
theorem note_sign_valid (X : EthEnv) (n : Note) (priv : Bytes) (sig : Val)
    (law : KeyPair X priv n.addressFrom) (h : n.sign X priv = .ok sig) :
    n.sigValid X sig = .ok true := by
  unfold Note.sign at h
  split at h
  · cases h
  rename_i hh hhash
  split at h
  · cases h
  rename_i v r s hs
  split at h
  · cases h
  injection h with h
  subst h
  exact (sig_valid_decision X n _).mpr ⟨_, _, _, hh, rfl, hhash, law hh v r s hs⟩

/-- The messages of these two notes differ and have the same hash. -/
def NoteCollision (X : EthEnv) (n1 n2 : Note) : Prop :=
  ∃ s t a b h, n1.hexmsg = .ok s ∧ n2.hexmsg = .ok t ∧ Denotes s a ∧ Denotes t b ∧ a ≠ b ∧
    X.defunctHash s = .ok h ∧ X.defunctHash t = .ok h

/-- The hashes of these two notes differ, and this signature recovers to the payer for both. -/
def NoteForgery (X : EthEnv) (n1 n2 : Note) (sig : Val) : Prop :=
  ∃ h h' v r s, n1.hash X = .ok h ∧ n2.hash X = .ok h' ∧ h ≠ h' ∧ sig.iter = some [v, r, s] ∧
    X.recoverHash h v r s = .ok n1.addressFrom ∧ X.recoverHash h' v r s = .ok n1.addressFrom

/-- C48: a signature valid for two notes of one payer is valid only for the same promise, unless
these two notes collide or this signature fits two hashes. -/
theorem note_binding (X : EthEnv) (n1 n2 : Note) (p1 p2 : Promise) (sig : Val) (h1 : Says n1 p1)
    (h2 : Says n2 p2) (hp : n1.addressFrom = n2.addressFrom) (v1 : n1.sigValid X sig = .ok true)
    (v2 : n2.sigValid X sig = .ok true) : p1 = p2 ∨ NoteCollision X n1 n2 ∨
      NoteForgery X n1 n2 sig := by
  obtain ⟨v, r, s, g1, i1, j1, k1⟩ := (sig_valid_decision X n1 sig).mp v1
  obtain ⟨v', r', s', g2, i2, j2, k2⟩ := (sig_valid_decision X n2 sig).mp v2
  rw [i1] at i2
  simp only [Option.some.injEq, List.cons.injEq, and_true] at i2
  obtain ⟨rfl, rfl, rfl⟩ := i2
  by_cases hg : g1 = g2
  · subst hg
    obtain ⟨t1, b1, e1, f1, _⟩ := promissory_layout n1 p1 h1
    obtain ⟨t2, b2, e2, f2, _⟩ := promissory_layout n2 p2 h2
    unfold Note.hash at j1 j2
    rw [e1] at j1
    rw [e2] at j2
    by_cases hb : b1 = b2
    · subst hb
      exact Or.inl (promissory_unambiguous n1 n2 p1 p2 h1 h2 t1 t2 b1 e1 e2 f1 f2)
    · exact Or.inr (Or.inl ⟨t1, t2, b1, b2, g1, e1, e2, f1, f2, hb, j1, j2⟩)
  · exact Or.inr (Or.inr ⟨g1, g2, v, r, s, j1, j2, hg, i1, k1, by rw [hp]; exact k2⟩)

/-! #### Messages that carry notes -/

private theorem notes_stable (X : EthEnv) (m : Msg) (contract : PStr) (cs s : Val)
    (hc : m.cls = .TaskToCompute) :
    let as' := setName p!"promissory_note_sig" s (setName p!"concent_promissory_note_sig" cs m.attrs)
    let m' : Msg := { m with attrs := as' }
    ttcNote X m' contract = ttcNote X m contract ∧
    ttcConcentNote X m' contract = ttcConcentNote X m contract ∧
    getAttr m'.attrs p!"promissory_note_sig" = s ∧
    getAttr m'.attrs p!"concent_promissory_note_sig" = cs := by
  intro as' m'
  have hg : ∀ k, k ≠ p!"promissory_note_sig" → k ≠ p!"concent_promissory_note_sig" →
      getAttr m'.attrs k = getAttr m.attrs k := by
    intro k h1 h2
    simp only [m', as']
    rw [getAttr_setName, if_neg h1, getAttr_setName, if_neg h2]
  have ht : taskGet p!"subtask_id" m'.val = taskGet p!"subtask_id" m.val := by
    rw [ttc_subtask m' hc, ttc_subtask m hc, hg _ (by decide) (by decide)]
  refine ⟨?_, ?_, ?_, ?_⟩
  · rw [ttcNote_eq, ttcNote_eq]
    rw [ht, hg _ (by decide) (by decide), hg p!"want_to_compute_task" (by decide) (by decide),
      hg p!"price" (by decide) (by decide)]
  · rw [ttcConcentNote_eq, ttcConcentNote_eq]
    rw [ht, hg _ (by decide) (by decide), hg p!"price" (by decide) (by decide)]
  · simp only [m', as']
    rw [getAttr_setName, if_pos rfl]
  · simp only [m', as']
    rw [getAttr_setName, if_neg (by decide), getAttr_setName, if_pos rfl]

/-- C48: after `sign_all_promissory_notes` with the key of the requestor's address,
`verify_all_promissory_notes` succeeds; nothing but the two signatures is changed. -/
theorem ttc_notes_sign_verify (X : EthEnv) (m m' : Msg) (contract : PStr) (priv : Bytes) (addr : PStr)
    (hc : m.cls = .TaskToCompute)
    (ha : X.address (getAttr m.attrs p!"requestor_ethereum_public_key") = .ok addr)
    (law : KeyPair X priv addr) (h : signAllNotes X m contract priv = .ok m') :
    verifyAllNotes X m' contract = .ok true ∧
    (m'.cls = m.cls ∧ m'.ty = m.ty ∧ m'.ts = m.ts ∧ m'.enc = m.enc ∧ m'.sig = m.sig) ∧
    ∀ k, k ≠ p!"promissory_note_sig" → k ≠ p!"concent_promissory_note_sig" →
      getAttr m'.attrs k = getAttr m.attrs k := by
  unfold signAllNotes at h
  split at h
  · cases h
  rename_i u m2 hall
  injection h with h
  subst h
  unfold signAllNotesOn at hall
  split at hall
  · cases hall
  rename_i m1 hm1
  split at hall
  · cases hall
  rename_i m3 hm3
  injection hall with _ hall
  subst hall
  unfold signConcentNote at hm1
  split at hm1
  · cases hm1
  rename_i cn hcn
  split at hm1
  · cases hm1
  rename_i cs hcs
  injection hm1 with hm1
  unfold signNote at hm3
  split at hm3
  · cases hm3
  rename_i n hn
  split at hm3
  · cases hm3
  rename_i s hs
  injection hm3 with h
  subst hm1
  obtain ⟨e1, e2, e3, e4⟩ := notes_stable X m contract cs s hc
  rw [note_once X m contract cs hc] at hn
  rw [h] at e1 e2 e3 e4
  have from1 : cn.addressFrom = addr := by
    rw [ttcConcentNote_eq] at hcn
    rw [ha] at hcn
    simp only at hcn
    split at hcn
    · cases hcn
    split at hcn
    · cases hcn
    · injection hcn with hcn; rw [← hcn]
  have from2 : n.addressFrom = addr := by
    rw [ttcNote_eq] at hn
    rw [ha] at hn
    simp only at hn
    split at hn
    · cases hn
    split at hn
    · cases hn
    split at hn
    · cases hn
    split at hn
    · cases hn
    · injection hn with hn; rw [← hn]
  refine ⟨?_, ?_, ?_⟩
  · unfold verifyAllNotes
    rw [verifyConcentNote_of (e2.trans hcn), verifyNote_of (e1.trans hn), e3, e4]
    rw [note_sign_valid X cn priv cs (by rw [from1]; exact law) hcs]
    exact note_sign_valid X n priv s (by rw [from2]; exact law) hs
  · subst h; exact ⟨rfl, rfl, rfl, rfl, rfl⟩
  · subst h
    intro k h1 h2
    simp only
    rw [getAttr_setName, if_neg h1, getAttr_setName, if_neg h2]

/-- C48: `verify_all_promissory_notes` succeeds exactly if both signatures recover to the
requestor's address, over the two notes for the message's own price, subtask and parties and the
given contract: one to the provider, one to the contract. -/
theorem ttc_notes_decision (X : EthEnv) (m : Msg) (contract : PStr) (hc : m.cls = .TaskToCompute) :
    verifyAllNotes X m contract = .ok true ↔
    ∃ addr payee provider sid, X.address (getAttr m.attrs p!"requestor_ethereum_public_key") = .ok addr ∧
      attrOf (getAttr m.attrs p!"want_to_compute_task") p!"provider_ethereum_address" = .ok payee ∧
      TextValue payee provider ∧
      TextValue (dictAttr (getAttr m.attrs p!"compute_task_def") p!"subtask_id") sid ∧
      (⟨addr, contract, getAttr m.attrs p!"price", sid, contract⟩ : Note).sigValid X
        (getAttr m.attrs p!"concent_promissory_note_sig") = .ok true ∧
      (⟨addr, provider, getAttr m.attrs p!"price", sid, contract⟩ : Note).sigValid X
        (getAttr m.attrs p!"promissory_note_sig") = .ok true := by
  constructor
  · intro h
    unfold verifyAllNotes at h
    split at h
    · cases h
    · cases h
    rename_i hconc
    obtain ⟨cn, hcn, hconc⟩ := verifyConcentNote_true hconc
    obtain ⟨n, hn, h⟩ := verifyNote_true h
    rw [ttcConcentNote_eq] at hcn
    rw [ttcNote_eq] at hn
    split at hn
    · cases hn
    rename_i addr haddr
    split at hn
    · cases hn
    rename_i tov htov
    split at hn
    · cases hn
    rename_i to hto
    split at hn
    · cases hn
    rename_i am ham
    split at hn
    · cases hn
    rename_i sid hsid
    injection hn with hn
    rw [haddr, ham, hsid] at hcn
    simp only at hcn
    injection hcn with hcn
    subst hn hcn
    rw [ttc_subtask m hc] at hsid
    exact ⟨addr, tov, to, sid, haddr, htov, textOf_iff.mp hto, idTextOf_iff.mp hsid, hconc, h⟩
  · rintro ⟨addr, payee, provider, sid, h1, h2, h2', h3, h4, h5⟩
    obtain ⟨_, _, _, h, _, hh, _⟩ := (sig_valid_decision _ _ _).mp h4
    obtain ⟨am, ham⟩ := hash_amount hh
    dsimp only at ham
    have hc1 : ttcConcentNote X m contract =
        .ok ⟨addr, contract, getAttr m.attrs p!"price", sid, contract⟩ := by
      rw [ttcConcentNote_eq]
      rw [h1, ham, ttc_subtask m hc, idTextOf_iff.mpr h3]
    have hn1 : ttcNote X m contract =
        .ok ⟨addr, provider, getAttr m.attrs p!"price", sid, contract⟩ := by
      rw [ttcNote_eq]
      rw [h1, h2]
      dsimp only
      rw [textOf_iff.mpr h2', ham, ttc_subtask m hc, idTextOf_iff.mpr h3]
    unfold verifyAllNotes
    rw [verifyConcentNote_of hc1, verifyNote_of hn1]
    rw [h4]
    exact h5

/-- C48: without a signature for the Concent, `verify_all_promissory_notes` is `False`, not an error,
whatever else the task says; without one for the provider it is too, unless the first cannot be checked. -/
theorem ttc_notes_unsigned (X : EthEnv) (m w : Msg) (contract : PStr) (addr : PStr)
    (ha : X.address (getAttr m.attrs p!"requestor_ethereum_public_key") = .ok addr)
    (hw : getAttr m.attrs p!"want_to_compute_task" = w.val) :
    ((getAttr m.attrs p!"concent_promissory_note_sig").truthy = false →
      verifyAllNotes X m contract = .ok false) ∧
    ((getAttr m.attrs p!"promissory_note_sig").truthy = false →
      verifyAllNotes X m contract = .ok false ∨
      ∃ e, verifyConcentNote X m contract = .error e ∧ verifyAllNotes X m contract = .error e) := by
  constructor
  · intro h
    unfold verifyAllNotes verifyConcentNote ttcConcentRaw
    rw [ha]
    dsimp only
    unfold RawNote.sigValid
    rw [h]
    rfl
  · intro h
    have hv : verifyNote X m contract = .ok false := by
      unfold verifyNote ttcRaw
      rw [ha, hw]
      show RawNote.sigValid X _ _ = _
      unfold RawNote.sigValid
      rw [h]
      rfl
    unfold verifyAllNotes
    cases hc : verifyConcentNote X m contract with
    | error e => exact .inr ⟨e, rfl, rfl⟩
    | ok b =>
      left
      cases b with
      | false => rfl
      | true => exact hv

/-- C48: two messages of one requestor with the same two valid signatures have the same price,
subtask, provider and contract. -/
theorem ttc_notes_binding (X : EthEnv) (m1 m2 : Msg) (c1 c2 : PStr)
    (hc1 : m1.cls = .TaskToCompute) (hc2 : m2.cls = .TaskToCompute)
    (hreq : X.address (getAttr m1.attrs p!"requestor_ethereum_public_key") =
      X.address (getAttr m2.attrs p!"requestor_ethereum_public_key"))
    (hsig : getAttr m1.attrs p!"promissory_note_sig" = getAttr m2.attrs p!"promissory_note_sig")
    (v1 : verifyAllNotes X m1 c1 = .ok true) (v2 : verifyAllNotes X m2 c2 = .ok true)
    (n1 n2 : Note) (p1 p2 : Promise) (t1 : ttcNote X m1 c1 = .ok n1) (t2 : ttcNote X m2 c2 = .ok n2)
    (s1 : Says n1 p1) (s2 : Says n2 p2) :
    (p1 = p2 ∧ getAttr m1.attrs p!"price" = getAttr m2.attrs p!"price") ∨
      NoteCollision X n1 n2 ∨ NoteForgery X n1 n2 (getAttr m1.attrs p!"promissory_note_sig") := by
  have key : ∀ {m : Msg} {c : PStr} {n : Note}, m.cls = .TaskToCompute →
      verifyAllNotes X m c = .ok true → ttcNote X m c = .ok n →
      n.sigValid X (getAttr m.attrs p!"promissory_note_sig") = .ok true ∧
      X.address (getAttr m.attrs p!"requestor_ethereum_public_key") = .ok n.addressFrom ∧
      n.amount = getAttr m.attrs p!"price" := by
    intro m c n hc hv ht
    obtain ⟨addr, payee, provider, sid, h1, h2, h2', h3, _, h5⟩ := (ttc_notes_decision X m c hc).mp hv
    obtain ⟨_, _, _, h, _, hh, _⟩ := (sig_valid_decision _ _ _).mp h5
    obtain ⟨am, ham⟩ := hash_amount hh
    dsimp only at ham
    have hn1 : ttcNote X m c = .ok ⟨addr, provider, getAttr m.attrs p!"price", sid, c⟩ := by
      rw [ttcNote_eq]
      rw [h1, h2]
      dsimp only
      rw [textOf_iff.mpr h2', ham, ttc_subtask m hc, idTextOf_iff.mpr h3]
    rw [ht] at hn1
    injection hn1 with hn1
    subst hn1
    exact ⟨h5, h1, rfl⟩
  obtain ⟨a1, b1, d1⟩ := key hc1 v1 t1
  obtain ⟨a2, b2, d2⟩ := key hc2 v2 t2
  rw [b1, b2] at hreq
  injection hreq with hreq
  rw [← hsig] at a2
  rcases note_binding X n1 n2 p1 p2 _ s1 s2 hreq a1 a2 with h | h
  · exact Or.inl ⟨h, by rw [← d1, ← d2, s1.amount, s2.amount, h]⟩
  · exact Or.inr h

/-- C48: the provider's note in a `SubtaskResultsVerify`, likewise: signing with the key of the
provider's address makes it verify. -/
theorem srv_note_sign_verify (X : EthEnv) (m m' : Msg) (contract : PStr) (priv : Bytes) (n : Note)
    (hn : srvConcentNote m contract = .ok n) (law : KeyPair X priv n.addressFrom)
    (h : signSrvNote X m contract priv = .ok m') : verifySrvNote X m' contract = .ok true := by
  unfold signSrvNote at h
  rw [hn] at h
  simp only at h
  split at h
  · cases h
  rename_i s hs
  injection h with h
  subst h
  have hst : srvConcentNote { m with attrs := setName p!"concent_promissory_note_sig" s m.attrs }
      contract = srvConcentNote m contract := by
    unfold srvConcentNote srvConcentRaw
    simp only
    rw [getAttr_setName, if_neg (by decide)]
  rw [verifySrvNote_of (hst.trans hn)]
  simp only
  rw [getAttr_setName, if_pos rfl]
  exact note_sign_valid X n priv s law hs

/-- C48: the note of a `SubtaskResultsVerify` verifies exactly if its signature recovers to the
provider's address given in the offer, over the note from that address to the contract for the
price and subtask of the `TaskToCompute` in question. -/
theorem srv_note_decision (X : EthEnv) (m rej rct t w : Msg) (contract : PStr)
    (h0 : getAttr m.attrs p!"subtask_results_rejected" = rej.val)
    (h1 : rej.cls = .SubtaskResultsRejected)
    (h2 : getAttr rej.attrs p!"report_computed_task" = rct.val) (h3 : rct.cls = .ReportComputedTask)
    (h4 : getAttr rct.attrs p!"task_to_compute" = t.val) (h5 : t.cls = .TaskToCompute)
    (h6 : getAttr t.attrs p!"want_to_compute_task" = w.val) :
    verifySrvNote X m contract = .ok true ↔
    ∃ provider sid, TextValue (getAttr w.attrs p!"provider_ethereum_address") provider ∧
      TextValue (dictAttr (getAttr t.attrs p!"compute_task_def") p!"subtask_id") sid ∧
      (⟨provider, contract, getAttr t.attrs p!"price", sid, contract⟩ : Note).sigValid X
        (getAttr m.attrs p!"concent_promissory_note_sig") = .ok true := by
  have hn : srvConcentRaw m contract = .ok ⟨getAttr w.attrs p!"provider_ethereum_address", .str contract,
      getAttr t.attrs p!"price", dictAttr (getAttr t.attrs p!"compute_task_def") p!"subtask_id", contract⟩ := by
    unfold srvConcentRaw
    simp only
    rw [h0, rejected_ttc rej rct t h1 h2 h3 h4, ttc_subtask t h5]
    have ha : ∀ (x : Msg) n, attrOf x.val n = .ok (getAttr x.attrs n) := fun _ _ => rfl
    rw [ha, ha, h6]
    dsimp only
    rw [ha]
  constructor
  · intro h
    unfold verifySrvNote at h
    rw [hn] at h
    obtain ⟨⟨y1, y2, y3, y4, y5⟩, h1, h2⟩ := raw_valid_true h
    obtain ⟨a, b, _, c, d, e⟩ := raw_texts.mp h1
    dsimp only at a b c d e
    cases b
    subst d e
    exact ⟨_, _, a, c, h2⟩
  · rintro ⟨provider, sid, e1, e2, hv⟩
    obtain ⟨_, _, _, h, _, hh, _⟩ := (sig_valid_decision _ _ _).mp hv
    unfold verifySrvNote
    rw [hn]
    exact (raw_valid_of (raw_texts.mpr ⟨e1, .plain _, hash_amount hh, e2, rfl, rfl⟩) _).trans hv

/-- C48: and without a signature it is `False`, whatever the values of the note. -/
theorem srv_note_unsigned (X : EthEnv) (m rej rct t w : Msg) (contract : PStr)
    (h0 : getAttr m.attrs p!"subtask_results_rejected" = rej.val)
    (h1 : rej.cls = .SubtaskResultsRejected)
    (h2 : getAttr rej.attrs p!"report_computed_task" = rct.val) (h3 : rct.cls = .ReportComputedTask)
    (h4 : getAttr rct.attrs p!"task_to_compute" = t.val)
    (h6 : getAttr t.attrs p!"want_to_compute_task" = w.val)
    (hs : (getAttr m.attrs p!"concent_promissory_note_sig").truthy = false) :
    verifySrvNote X m contract = .ok false := by
  unfold verifySrvNote srvConcentRaw
  simp only
  rw [h0, rejected_ttc rej rct t h1 h2 h3 h4]
  have ha : ∀ (x : Msg) n, attrOf x.val n = .ok (getAttr x.attrs n) := fun _ _ => rfl
  rw [ha, ha, h6]
  dsimp only
  rw [ha]
  dsimp only
  unfold RawNote.sigValid
  rw [hs]
  rfl

/-! ### Non-vacuity -/

/-- A toy scheme: the hash is the text, the signature `r` is a number read from it, and it
recovers to the toy address if it matches. -/
private def toyEth : EthEnv where
  defunctHash s := .ok (utf8Enc s)
  signHash h _ := .ok (27, ofBE h % 2 ^ 256, 5)
  recoverHash h v r s :=
    if v = .int 27 ∧ r = .bytes (toBE 32 (ofBE h % 2 ^ 256)) ∧ s = .bytes (toBE 32 5) then
      .ok p!"0xaaaaaaaaaaaaaaaaaaaaaaaaaaaaaaaaaaaaaaaa"
    else .ok p!"0xbbbbbbbbbbbbbbbbbbbbbbbbbbbbbbbbbbbbbbbb"
  address _ := .ok p!"0xaaaaaaaaaaaaaaaaaaaaaaaaaaaaaaaaaaaaaaaa"

private theorem toyEth_law (priv : Bytes) :
    KeyPair toyEth priv p!"0xaaaaaaaaaaaaaaaaaaaaaaaaaaaaaaaaaaaaaaaa" := by
  intro h v r s hs
  simp only [toyEth] at hs ⊢
  injection hs with hs
  simp only [Prod.mk.injEq] at hs
  obtain ⟨rfl, rfl, rfl⟩ := hs
  simp

private def exNote : Note :=
  ⟨p!"0xaaaaaaaaaaaaaaaaaaaaaaaaaaaaaaaaaaaaaaaa", p!"0xcccccccccccccccccccccccccccccccccccccccc",
    .int 1000, p!"01020304-0506-0708-090a-0b0c0d0e0f10", p!"0xDDDDDDDDDDDDDDDDDDDDDDDDDDDDDDDDDDDDDDDD"⟩

/-- A note that says something, as the theorems need. -/
example : ∃ p, Says exNote p ∧ p.amount = 1000 ∧ p.subtask = 0x0102030405060708090a0b0c0d0e0f10 := by
  have addr : ∀ (t : PStr) b, unhexlify t = .ok b → b.length = 20 → Address ('0' :: 'x' :: t) b :=
    fun t b h hl => ⟨t, rfl, (unhexlify_iff t b).mp h, hl⟩
  refine ⟨⟨List.replicate 20 221, List.replicate 20 170, List.replicate 20 204, 1000,
    0x0102030405060708090a0b0c0d0e0f10⟩, ⟨addr _ _ ?_ ?_, addr _ _ ?_ ?_, addr _ _ ?_ ?_, rfl, ?_,
    (parseUuid_iff _ _).mp ?_⟩, rfl, rfl⟩ <;> decide +kernel

/-- Refutation for the subtask id as text: the same message is signed for ids that are different
texts of one UUID. -/
theorem note_id_text_refuted : ∃ n n' : Note, n.subtaskId ≠ n'.subtaskId ∧
    (∃ s, n.hexmsg = .ok s ∧ n'.hexmsg = .ok s) ∧
    { n with subtaskId := n'.subtaskId } = n' := by
  refine ⟨exNote, { exNote with subtaskId := p!"{urn:uuid:0102030405060708090A0B0C0D0E0F١٠}" },
    by decide, ⟨(exNote.hexmsg).toOption.getD [], ?_, ?_⟩, rfl⟩ <;> decide +kernel

private def exTtc : Msg where
  cls := .TaskToCompute
  ty := .int 2002
  ts := .int 1
  enc := .bool false
  sig := .none
  attrs := [(p!"requestor_ethereum_public_key", .str p!"ab"), (p!"price", .int 1000),
    (p!"compute_task_def", .dict [(.str p!"subtask_id", .str p!"01020304-0506-0708-090a-0b0c0d0e0f10")]),
    (p!"want_to_compute_task", .msg .WantToComputeTask (.int 2001) (.int 1) (.bool false) .none
      [(p!"provider_ethereum_address", .str p!"0xcccccccccccccccccccccccccccccccccccccccc")])]

/-- A task to compute whose notes are signed and verify; unsigned they do not. -/
example : ∃ m', signAllNotes toyEth exTtc p!"0xDDDDDDDDDDDDDDDDDDDDDDDDDDDDDDDDDDDDDDDD" [1] = .ok m' ∧
    verifyAllNotes toyEth m' p!"0xDDDDDDDDDDDDDDDDDDDDDDDDDDDDDDDDDDDDDDDD" = .ok true ∧
    verifyAllNotes toyEth exTtc p!"0xDDDDDDDDDDDDDDDDDDDDDDDDDDDDDDDDDDDDDDDD" = .ok false := by
  have h : (signAllNotes toyEth exTtc p!"0xDDDDDDDDDDDDDDDDDDDDDDDDDDDDDDDDDDDDDDDD" [1]).isOk = true := by
    decide +kernel
  cases hs : signAllNotes toyEth exTtc p!"0xDDDDDDDDDDDDDDDDDDDDDDDDDDDDDDDDDDDDDDDD" [1] with
  | error e => rw [hs] at h; cases h
  | ok m' => exact ⟨m', rfl, (ttc_notes_sign_verify toyEth exTtc m' _ [1] _ rfl rfl (toyEth_law _) hs).1,
      by decide +kernel⟩

/-- An unsigned task to compute of an offer without an address: its notes are not valid, and that is no
error. -/
example : verifyAllNotes toyEth { exTtc with attrs := exTtc.attrs.take 3 ++
    [(p!"want_to_compute_task", .msg .WantToComputeTask (.int 2001) (.int 1) (.bool false) .none [])] }
    p!"0xDD" = .ok false := by
  decide +kernel

private def exOffer2 : Msg :=
  ⟨.WantToComputeTask, .int 2001, .int 1, .bool false, .none,
    [(p!"provider_ethereum_address", .str p!"0xaaaaaaaaaaaaaaaaaaaaaaaaaaaaaaaaaaaaaaaa")]⟩

private def exTtc2 : Msg :=
  ⟨.TaskToCompute, .int 2002, .int 1, .bool false, .none,
    [(p!"price", .int 1000), (p!"want_to_compute_task", exOffer2.val), (p!"compute_task_def",
      .dict [(.str p!"subtask_id", .str p!"01020304-0506-0708-090a-0b0c0d0e0f10")])]⟩

private def exReport : Msg :=
  ⟨.ReportComputedTask, .int 2004, .int 1, .bool false, .none, [(p!"task_to_compute", exTtc2.val)]⟩

private def exRejected : Msg :=
  ⟨.SubtaskResultsRejected, .int 2011, .int 1, .bool false, .none,
    [(p!"report_computed_task", exReport.val)]⟩

private def exVerify : Msg :=
  ⟨.SubtaskResultsVerify, .int 4006, .int 1, .bool false, .none,
    [(p!"subtask_results_rejected", exRejected.val)]⟩

/-- The note of a request for verification, signed by the provider, verifies; unsigned it does
not. -/
example : ∃ m', signSrvNote toyEth exVerify p!"0xDDDDDDDDDDDDDDDDDDDDDDDDDDDDDDDDDDDDDDDD" [1] = .ok m' ∧
    verifySrvNote toyEth m' p!"0xDDDDDDDDDDDDDDDDDDDDDDDDDDDDDDDDDDDDDDDD" = .ok true ∧
    verifySrvNote toyEth exVerify p!"0xDDDDDDDDDDDDDDDDDDDDDDDDDDDDDDDDDDDDDDDD" = .ok false ∧
    ∃ rej rct t w : Msg, getAttr m'.attrs p!"subtask_results_rejected" = rej.val ∧
      rej.cls = .SubtaskResultsRejected ∧ getAttr rej.attrs p!"report_computed_task" = rct.val ∧
      rct.cls = .ReportComputedTask ∧ getAttr rct.attrs p!"task_to_compute" = t.val ∧
      t.cls = .TaskToCompute ∧ getAttr t.attrs p!"want_to_compute_task" = w.val := by
  have h : ((signSrvNote toyEth exVerify p!"0xDDDDDDDDDDDDDDDDDDDDDDDDDDDDDDDDDDDDDDDD" [1]).toOption.map
      fun m' => decide (verifySrvNote toyEth m' p!"0xDDDDDDDDDDDDDDDDDDDDDDDDDDDDDDDDDDDDDDDD" = .ok true ∧
        getAttr m'.attrs p!"subtask_results_rejected" = exRejected.val)) = some true := by
    decide +kernel
  cases hs : signSrvNote toyEth exVerify p!"0xDDDDDDDDDDDDDDDDDDDDDDDDDDDDDDDDDDDDDDDD" [1] with
  | error e => rw [hs] at h; cases h
  | ok m' =>
    rw [hs] at h
    have h' := of_decide_eq_true (Option.some.inj h)
    exact ⟨m', rfl, h'.1, by decide +kernel, exRejected, exReport, exTtc2, exOffer2,
      h'.2, rfl, rfl, rfl, rfl, rfl, by decide +kernel⟩

end Verif.Props
