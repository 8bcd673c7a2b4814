import Verif.Spec.Promissory
import Verif.Lemmas.NoteTexts
/-! # Promissory notes of messages: the values are looked at when the note is hashed -/

namespace Verif

open Spec

theorem hash_amount {X : EthEnv} {n : Note} {h : Bytes} (hh : n.hash X = .ok h) :
    ∃ a, amountBytes n.amount = .ok a := by
  unfold Note.hash Note.hexmsg at hh
  cases ha : amountBytes n.amount with
  | ok a => exact ⟨a, rfl⟩
  | error e => rw [ha] at hh; cases hh

theorem raw_valid_of {X : EthEnv} {n : RawNote} {t : Note} (h : n.texts = .ok t) (sig : Val) :
    n.sigValid X sig = t.sigValid X sig := by
  unfold RawNote.sigValid
  rw [h]
  dsimp only
  unfold Note.sigValid
  cases sig.truthy with
  | false => rfl
  | true =>
    simp only [Bool.not_true, Bool.false_eq_true, if_false]
    split
    · rfl
    · rfl

theorem raw_valid_true {X : EthEnv} {n : RawNote} {sig : Val} (h : n.sigValid X sig = .ok true) :
    ∃ t, n.texts = .ok t ∧ t.sigValid X sig = .ok true := by
  cases ht : n.texts with
  | ok t => exact ⟨t, rfl, raw_valid_of ht sig ▸ h⟩
  | error e =>
    unfold RawNote.sigValid at h
    rw [ht] at h
    dsimp only at h
    split at h
    · cases h
    split at h <;> cases h

theorem noteTexts_ok {n : Res RawNote} {t : Note} (h : noteTexts n = .ok t) : ∃ r, n = .ok r ∧ r.texts = .ok t := by
  unfold noteTexts at h
  split at h
  · cases h
  · exact ⟨_, rfl, h⟩

theorem verifyNote_of {X : EthEnv} {m : Msg} {c : PStr} {n : Note} (h : ttcNote X m c = .ok n) :
    verifyNote X m c = n.sigValid X (getAttr m.attrs p!"promissory_note_sig") := by
  obtain ⟨r, h1, h2⟩ := noteTexts_ok h
  unfold verifyNote
  rw [h1]
  exact raw_valid_of h2 _

theorem verifyNote_true {X : EthEnv} {m : Msg} {c : PStr} (h : verifyNote X m c = .ok true) :
    ∃ n, ttcNote X m c = .ok n ∧ n.sigValid X (getAttr m.attrs p!"promissory_note_sig") = .ok true := by
  unfold verifyNote at h
  split at h
  · cases h
  rename_i r hr
  obtain ⟨t, h1, h2⟩ := raw_valid_true h
  exact ⟨t, by unfold ttcNote; rw [hr]; exact h1, h2⟩

theorem verifyConcentNote_of {X : EthEnv} {m : Msg} {c : PStr} {n : Note} (h : ttcConcentNote X m c = .ok n) :
    verifyConcentNote X m c = n.sigValid X (getAttr m.attrs p!"concent_promissory_note_sig") := by
  obtain ⟨r, h1, h2⟩ := noteTexts_ok h
  unfold verifyConcentNote
  rw [h1]
  exact raw_valid_of h2 _

theorem verifyConcentNote_true {X : EthEnv} {m : Msg} {c : PStr} (h : verifyConcentNote X m c = .ok true) :
    ∃ n, ttcConcentNote X m c = .ok n ∧
      n.sigValid X (getAttr m.attrs p!"concent_promissory_note_sig") = .ok true := by
  unfold verifyConcentNote at h
  split at h
  · cases h
  rename_i r hr
  obtain ⟨t, h1, h2⟩ := raw_valid_true h
  exact ⟨t, by unfold ttcConcentNote; rw [hr]; exact h1, h2⟩

theorem verifySrvNote_of {X : EthEnv} {m : Msg} {c : PStr} {n : Note} (h : srvConcentNote m c = .ok n) :
    verifySrvNote X m c = n.sigValid X (getAttr m.attrs p!"concent_promissory_note_sig") := by
  obtain ⟨r, h1, h2⟩ := noteTexts_ok h
  unfold verifySrvNote
  rw [h1]
  exact raw_valid_of h2 _

theorem verifySrvNote_true {X : EthEnv} {m : Msg} {c : PStr} (h : verifySrvNote X m c = .ok true) :
    ∃ n, srvConcentNote m c = .ok n ∧
      n.sigValid X (getAttr m.attrs p!"concent_promissory_note_sig") = .ok true := by
  unfold verifySrvNote at h
  split at h
  · cases h
  rename_i r hr
  obtain ⟨t, h1, h2⟩ := raw_valid_true h
  exact ⟨t, by unfold srvConcentNote; rw [hr]; exact h1, h2⟩

theorem ttcNote_eq (X : EthEnv) (m : Msg) (contract : PStr) : ttcNote X m contract =
    match X.address (getAttr m.attrs p!"requestor_ethereum_public_key") with
    | .error e => .error e
    | .ok frm =>
      match attrOf (getAttr m.attrs p!"want_to_compute_task") p!"provider_ethereum_address" with
      | .error e => .error e
      | .ok tov =>
        match textOf tov with
        | .error e => .error e
        | .ok to =>
          match amountBytes (getAttr m.attrs p!"price") with
          | .error e => .error e
          | .ok _ =>
            match idTextOf (taskGet p!"subtask_id" m.val) with
            | .error e => .error e
            | .ok sid => .ok ⟨frm, to, getAttr m.attrs p!"price", sid, contract⟩ := by
  unfold ttcNote noteTexts ttcRaw
  cases X.address (getAttr m.attrs p!"requestor_ethereum_public_key") with
  | error e => rfl
  | ok frm =>
    cases attrOf (getAttr m.attrs p!"want_to_compute_task") p!"provider_ethereum_address" <;> rfl

theorem ttcConcentNote_eq (X : EthEnv) (m : Msg) (contract : PStr) : ttcConcentNote X m contract =
    match X.address (getAttr m.attrs p!"requestor_ethereum_public_key") with
    | .error e => .error e
    | .ok frm =>
      match amountBytes (getAttr m.attrs p!"price") with
      | .error e => .error e
      | .ok _ =>
        match idTextOf (taskGet p!"subtask_id" m.val) with
        | .error e => .error e
        | .ok sid => .ok ⟨frm, contract, getAttr m.attrs p!"price", sid, contract⟩ := by
  unfold ttcConcentNote noteTexts ttcConcentRaw
  cases X.address (getAttr m.attrs p!"requestor_ethereum_public_key") <;> rfl

end Verif
