import Verif.Props.MessageFactories
import Verif.Spec.Ethsig
import Verif.Lemmas.ToyMake
/-!
# C102: made tasks carry the payment signature asked for
-/

namespace Verif.Props

open Verif Spec

private theorem sub_get (n k : PStr) (kw : Attrs) :
    getAttr (subArgs n kw) k = getAttr kw (n ++ p!"__" ++ k) := by
  unfold getAttr
  rw [lookup_sub]

/-- What `generate_ethsig` makes. -/
private theorem generated {E : Env} {m m' : Msg} {priv : Bytes} (h : generateEthsig E m priv = .ok m') :
    PaidBy E m' priv ∧ (∀ n, n ≠ p!"ethsig" → getAttr m'.attrs n = getAttr m.attrs n) := by
  unfold generateEthsig at h
  split at h
  · cases h
  split at h
  · cases h
  rename_i w hw
  split at h
  · cases h
  rename_i hh hhash
  split at h
  · cases h
  rename_i s hs
  injection h with h
  subst h
  have hval : getAttr m.attrs p!"want_to_compute_task" = w.val := by
    cases hx : getAttr m.attrs p!"want_to_compute_task" <;> rw [hx] at hw <;> cases hw
    rfl
  refine ⟨⟨w, hh, s, ?_, hhash, hs, ?_⟩, fun n hn => ?_⟩
  · dsimp only; rw [getAttr_setName, if_neg (by decide), hval]
  · dsimp only; rw [getAttr_setName, if_pos rfl]
  · dsimp only; rw [getAttr_setName, if_neg hn]

private theorem paid_same {E : Env} {m m' : Msg} {priv : Bytes} (e : m'.attrs = m.attrs)
    (h : PaidBy E m priv) : PaidBy E m' priv := by
  unfold PaidBy at *
  rw [e]
  exact h

/-- What the hook of the payment signature does. -/
private theorem ethsig_hook {E : Env} {eth : Bytes × Bytes} {kw : Attrs} {m m' : Msg}
    (h : ethsigHook E eth kw m = .ok m') :
    let given := fun n => (getAttr kw (p!"ethsig" ++ p!"__" ++ n)).truthy = true
    let key := (getAttr m.attrs p!"requestor_ethereum_public_key").truthy = true
    (¬ given p!"privkey" ∧ given p!"disable" ∧ m' = m) ∨
    (∃ p, getAttr kw p!"ethsig__privkey" = .bytes p ∧ ¬ given p!"disable" ∧ p ≠ [] ∧
      generateEthsig E m p = .ok m') ∨
    (¬ given p!"privkey" ∧ ¬ given p!"disable" ∧ key ∧ m' = m) ∨
    (¬ given p!"privkey" ∧ ¬ given p!"disable" ∧ ¬ key ∧ ∃ pub, encodeHex (.bytes eth.2) = .ok pub ∧
      ((eth.1 = [] ∧ m' = { m with attrs := setName p!"requestor_ethereum_public_key" (.str pub) m.attrs }) ∨
        generateEthsig E { m with attrs := setName p!"requestor_ethereum_public_key" (.str pub) m.attrs }
          eth.1 = .ok m')) := by
  intro given key
  unfold ethsigHook at h
  simp only [bind, Except.bind] at h
  rw [sub_get, sub_get] at h
  have e1 : given p!"privkey" = ((getAttr kw (p!"ethsig" ++ p!"__" ++ p!"privkey")).truthy = true) := rfl
  have e2 : given p!"disable" = ((getAttr kw (p!"ethsig" ++ p!"__" ++ p!"disable")).truthy = true) := rfl
  have e3 : getAttr kw p!"ethsig__privkey" = getAttr kw (p!"ethsig" ++ p!"__" ++ p!"privkey") := rfl
  have e4 : key = ((getAttr m.attrs p!"requestor_ethereum_public_key").truthy = true) := rfl
  rw [e1, e2, e3, e4]
  generalize getAttr kw (p!"ethsig" ++ p!"__" ++ p!"privkey") = v at *
  generalize (getAttr kw (p!"ethsig" ++ p!"__" ++ p!"disable")).truthy = disable at *
  generalize (getAttr m.attrs p!"requestor_ethereum_public_key").truthy = k at *
  have hv : v = .none ∨ ∃ b, v = .bytes b := by
    cases v <;> first | (cases h; done) | exact .inl rfl | exact .inr ⟨_, rfl⟩
  have rest : ∀ v : Val, v.truthy = false → (if disable = true then Except.ok m
      else if (!k) = true then
        match encodeHex (.bytes eth.2) with
        | .error e => .error e
        | .ok pub => if eth.1 = [] then .ok { m with attrs := setName p!"requestor_ethereum_public_key" (.str pub) m.attrs }
          else generateEthsig E { m with attrs := setName p!"requestor_ethereum_public_key" (.str pub) m.attrs } eth.1
      else .ok m) = .ok m' →
      (¬ v.truthy = true ∧ disable = true ∧ m' = m) ∨
      (¬ v.truthy = true ∧ ¬ disable = true ∧ k = true ∧ m' = m) ∨
      (¬ v.truthy = true ∧ ¬ disable = true ∧ ¬ k = true ∧ ∃ pub, encodeHex (.bytes eth.2) = .ok pub ∧
        ((eth.1 = [] ∧ m' = { m with attrs := setName p!"requestor_ethereum_public_key" (.str pub) m.attrs }) ∨
          generateEthsig E { m with attrs := setName p!"requestor_ethereum_public_key" (.str pub) m.attrs }
            eth.1 = .ok m')) := by
    intro v hv h
    have hv : ¬ v.truthy = true := by rw [hv]; exact Bool.false_ne_true
    split at h
    · rename_i hd
      injection h with h
      exact .inl ⟨hv, hd, h.symm⟩
    rename_i hd
    split at h
    · rename_i hk
      refine .inr (.inr ⟨hv, hd, by simpa using hk, ?_⟩)
      split at h
      · cases h
      rename_i pub hpub
      refine ⟨pub, hpub, ?_⟩
      split at h
      · rename_i h0
        injection h with h
        exact .inl ⟨h0, h.symm⟩
      · exact .inr h
    · rename_i hk
      injection h with h
      exact .inr (.inl ⟨hv, hd, by simpa using hk, h.symm⟩)
  have join : ∀ {A B C D : Prop}, A ∨ C ∨ D → A ∨ B ∨ C ∨ D := fun h => h.elim .inl fun h => .inr (.inr h)
  rcases hv with rfl | ⟨b, rfl⟩
  · refine join (rest .none rfl ?_)
    cases he : encodeHex (Val.bytes eth.2) <;> simpa [he] using h
  · cases b with
    | nil =>
      refine join (rest (.bytes []) rfl ?_)
      cases he : encodeHex (Val.bytes eth.2) <;> simpa [he] using h
    | cons x xs =>
      simp at h
      refine .inr (.inl ⟨x :: xs, rfl, ?_⟩)
      split at h
      · cases h
      · rename_i hd
        exact ⟨hd, by simp, h⟩

/-- C102: the arguments of the hooks.  A task is made only when no argument is given to the hooks of
the ids, only `privkey`, `keys` and `disable` to that of the payment signature, and no contradictory
ones. -/
theorem ethsig_args (E : Env) (G : Getter) (keccak : Bytes → Bytes) (d : TaskDraw) (kw : Attrs)
    (m : Msg) (hk : (kw.map Prod.fst).Nodup) (h : taskFactory E G keccak d kw = .ok m) :
    (∀ k v, (k, v) ∈ kw → ¬ p!"task_id__" <+: k ∧ ¬ p!"subtask_id__" <+: k ∧
      (p!"ethsig__" <+: k → k ∈ [p!"ethsig__privkey", p!"ethsig__keys", p!"ethsig__disable"])) ∧
    ¬ (holds (getAttr kw p!"ethsig__privkey") = true ∧ holds (getAttr kw p!"ethsig__disable") = true) ∧
    ¬ (holds (getAttr kw p!"ethsig__keys") = true ∧ holds (getAttr kw p!"ethsig__disable") = true) ∧
    ¬ (holds (getAttr kw p!"ethsig__privkey") = true ∧ holds (getAttr kw p!"ethsig__keys") = true) := by
  obtain ⟨_, m2, m3, _, he, _⟩ := task_ethsig hk h
  unfold taskFactory at h
  split at h
  · cases h
  rename_i hids
  rw [not_or, Decidable.not_not, Decidable.not_not] at hids
  have hpre : ∀ n k v, (k, v) ∈ kw → (n ++ p!"__") <+: k → (k.drop (n.length + 2), v) ∈ subArgs n kw := by
    intro n k v hm hp
    unfold subArgs
    rw [List.mem_filterMap]
    exact ⟨(k, v), hm, by rw [if_pos (List.isPrefixOf_iff_prefix.mpr hp)]⟩
  simp only [holds_eq]
  have hkeys : ∃ keys, ethsigKeys kw = .ok keys := by
    cases hx : ethsigKeys kw with
    | error e => rw [hx] at h; cases h
    | ok keys => exact ⟨keys, rfl⟩
  obtain ⟨keys, hkeys⟩ := hkeys
  have hpd : ¬ ((getAttr kw p!"ethsig__privkey").truthy = true ∧ (getAttr kw p!"ethsig__disable").truthy = true) := by
    rintro ⟨h1, h2⟩
    rcases ethsig_hook he with ⟨h3, _⟩ | ⟨p, h3, h4, _⟩ | ⟨h3, h4, _⟩ | ⟨h3, h4, _⟩
    · exact h3 h1
    all_goals exact h4 h2
  unfold ethsigKeys at hkeys
  dsimp only at hkeys
  split at hkeys
  · cases hkeys
  rename_i hnames
  rw [sub_get, sub_get, sub_get] at hkeys
  refine ⟨fun k v hm => ⟨fun hp => ?_, fun hp => ?_, fun hp => ?_⟩, hpd, ?_, ?_⟩
  · have := hpre p!"task_id" k v hm hp
    rw [hids.1] at this
    cases this
  · have := hpre p!"subtask_id" k v hm hp
    rw [hids.2] at this
    cases this
  · obtain ⟨t, rfl⟩ := hp
    have hx := hpre p!"ethsig" _ v hm ⟨t, rfl⟩
    simp only [Bool.not_eq_true, List.any_eq_false, Bool.not_eq_false'] at hnames
    have := hnames _ hx
    have ht : t ∈ [p!"privkey", p!"keys", p!"disable"] := by
      simpa using this
    simp only [List.mem_cons, List.not_mem_nil, or_false] at ht
    rcases ht with rfl | rfl | rfl <;> decide
  · rintro ⟨h1, h2⟩
    change (if !(getAttr kw p!"ethsig__keys").truthy then _ else if (getAttr kw p!"ethsig__disable").truthy then _ else _) = _ at hkeys
    rw [h1, h2] at hkeys
    cases hkeys
  · rintro ⟨h1, h2⟩
    change (if !(getAttr kw p!"ethsig__keys").truthy then _ else if (getAttr kw p!"ethsig__disable").truthy then _
      else if (getAttr kw p!"ethsig__privkey").truthy then _ else _) = _ at hkeys
    rw [h1, h2] at hkeys
    simp only [Bool.not_true, Bool.false_eq_true, if_false, if_true] at hkeys
    split at hkeys <;> cases hkeys

/-- C102: with a private key the task has the payment signature by that key, and the payment key given
with it. -/
theorem ethsig_privkey (E : Env) (G : Getter) (keccak : Bytes → Bytes) (d : TaskDraw) (kw : Attrs)
    (m : Msg) (hk : (kw.map Prod.fst).Nodup) (h : taskFactory E G keccak d kw = .ok m) (priv : Bytes)
    (hp : lookupName p!"ethsig__privkey" kw = some (.bytes priv)) (hne : priv ≠ []) :
    PaidBy E m priv ∧ getAttr m.attrs p!"requestor_ethereum_public_key" =
      getAttr kw p!"requestor_ethereum_public_key" := by
  obtain ⟨keys, m2, m3, hkeys, he, ha, h1, h2⟩ := task_ethsig hk h
  have hg : getAttr kw p!"ethsig__privkey" = .bytes priv := by unfold getAttr; rw [hp]
  have ht : (getAttr kw (p!"ethsig" ++ p!"__" ++ p!"privkey")).truthy = true := by
    show (getAttr kw p!"ethsig__privkey").truthy = true
    rw [hg]
    cases priv with
    | nil => exact absurd rfl hne
    | cons _ _ => rfl
  rcases ethsig_hook he with ⟨h3, _⟩ | ⟨p, h3, h4, _, h5⟩ | ⟨h3, _⟩ | ⟨h3, _⟩
  · exact absurd ht h3
  · rw [hg] at h3
    injection h3 with h3
    subst h3
    obtain ⟨g1, g2⟩ := generated h5
    exact ⟨paid_same ha g1, by rw [ha, g2 _ (by decide), h2]⟩
  · exact absurd ht h3
  · exact absurd ht h3

private theorem made_pair {E : Env} {G : Getter} {keccak : Bytes → Bytes} {d : TaskDraw} {kw : Attrs}
    {m : Msg} {eth : Bytes × Bytes} (hk : (kw.map Prod.fst).Nodup) (h : taskFactory E G keccak d kw = .ok m)
    (he : ∀ keys, ethsigKeys kw = .ok keys → keys.getD d.eth = eth)
    (hn : holds (getAttr kw p!"ethsig__privkey") = false) (hd : holds (getAttr kw p!"ethsig__disable") = false)
    (ho : holds (getAttr kw p!"requestor_ethereum_public_key") = false) (h1 : eth.1 ≠ []) (h2 : eth.2 ≠ []) :
    PaidBy E m eth.1 ∧ ∃ key, getAttr m.attrs p!"requestor_ethereum_public_key" = .str key ∧
      HexText key eth.2 ∧ ∀ c ∈ key, c ∈ hexLower := by
  obtain ⟨keys, m2, m3, hkeys, hh, ha, a1, a2⟩ := task_ethsig hk h
  rw [he keys hkeys] at hh
  rw [holds_eq] at hn hd ho
  rcases ethsig_hook hh with ⟨_, h3, _⟩ | ⟨p, h3, h4, h5, _⟩ | ⟨_, _, h3, _⟩ | ⟨_, _, _, pub, h3, h4⟩
  · exact absurd (hd.symm.trans h3) Bool.false_ne_true
  · rw [h3] at hn
    cases p with
    | nil => exact absurd rfl h5
    | cons _ _ => cases hn
  · rw [a2, ho] at h3; cases h3
  · rcases h4 with ⟨h4, _⟩ | h4
    · exact absurd h4 h1
    · obtain ⟨g1, g2⟩ := generated h4
      refine ⟨paid_same ha g1, pub, ?_, ?_⟩
      · rw [ha, g2 _ (by decide)]
        dsimp only
        rw [getAttr_setName, if_pos rfl]
      · obtain ⟨s, e1, e2, _, e3⟩ := encode_hex_partial eth.2 h2
        rw [h3] at e1
        injection e1 with e1
        subst e1
        exact ⟨(decode_hex_decision _ _).1.mp e3, e2⟩

/-- C102: with a pair of keys the task names its public key, unless it was given one, and has the
payment signature by its private key.

Missing for the full claim: a task that is given a payment key, which ignores the pair
(`ethsig_keys_refuted`). -/
theorem ethsig_keys_partial (E : Env) (G : Getter) (keccak : Bytes → Bytes) (d : TaskDraw) (kw : Attrs)
    (m : Msg) (hk : (kw.map Prod.fst).Nodup) (h : taskFactory E G keccak d kw = .ok m) (priv pub : Bytes)
    (hp : lookupName p!"ethsig__keys" kw = some (.tuple [.bytes priv, .bytes pub])) (h1 : priv ≠ [])
    (h2 : pub ≠ []) (ho : holds (getAttr kw p!"requestor_ethereum_public_key") = false) :
    PaidBy E m priv ∧ ∃ key, getAttr m.attrs p!"requestor_ethereum_public_key" = .str key ∧
      HexText key pub ∧ ∀ c ∈ key, c ∈ hexLower := by
  have hg : getAttr kw p!"ethsig__keys" = .tuple [.bytes priv, .bytes pub] := by unfold getAttr; rw [hp]
  obtain ⟨_, _, n2, n3⟩ := ethsig_args E G keccak d kw m hk h
  have hh : holds (getAttr kw p!"ethsig__keys") = true := by rw [hg]; rfl
  refine made_pair (eth := (priv, pub)) hk h (fun keys hkeys => ?_) (Bool.eq_false_iff.mpr fun e => n3 ⟨e, hh⟩)
    (Bool.eq_false_iff.mpr fun e => n2 ⟨hh, e⟩) ho h1 h2
  unfold ethsigKeys at hkeys
  dsimp only at hkeys
  rw [sub_get, sub_get, sub_get] at hkeys
  change (if _ then _ else if !(getAttr kw p!"ethsig__keys").truthy then _ else if _ then _ else if _ then _
    else match getAttr kw p!"ethsig__keys" with
      | .tuple [.bytes priv, .bytes pub] => Except.ok (some (priv, pub))
      | _ => _) = _ at hkeys
  rw [hg] at hkeys
  repeat' split at hkeys
  all_goals first
    | (cases hkeys; done)
    | exact absurd ‹(!(Val.tuple [Val.bytes priv, Val.bytes pub]).truthy) = true› (fun e => by cases e)
    | (injection hkeys with hkeys; subst hkeys; rename_i e; cases e; rfl)
    | (injection hkeys with hkeys; subst hkeys; rfl)

/-- C102: without any of these, the task has a payment signature by a new pair, and names it. -/
theorem ethsig_drawn (E : Env) (G : Getter) (keccak : Bytes → Bytes) (d : TaskDraw) (kw : Attrs)
    (m : Msg) (hk : (kw.map Prod.fst).Nodup) (h : taskFactory E G keccak d kw = .ok m)
    (hn : ∀ n ∈ [p!"ethsig__privkey", p!"ethsig__keys", p!"ethsig__disable",
      p!"requestor_ethereum_public_key"], holds (getAttr kw n) = false)
    (h1 : d.eth.1 ≠ []) (h2 : d.eth.2 ≠ []) :
    PaidBy E m d.eth.1 ∧ ∃ key, getAttr m.attrs p!"requestor_ethereum_public_key" = .str key ∧
      HexText key d.eth.2 ∧ ∀ c ∈ key, c ∈ hexLower := by
  refine made_pair hk h (fun keys hkeys => ?_) (hn _ (by decide)) (hn _ (by decide)) (hn _ (by decide)) h1 h2
  have hx := hn p!"ethsig__keys" (by decide)
  rw [holds_eq] at hx
  unfold ethsigKeys at hkeys
  dsimp only at hkeys
  split at hkeys
  · cases hkeys
  rw [if_pos (by rw [sub_get]; show (!(getAttr kw p!"ethsig__keys").truthy) = true; rw [hx]; rfl)] at hkeys
  injection hkeys with hkeys
  subst hkeys
  rfl

/-- C102: a task is left without payment signature when that is asked for, and when it is given a
payment key but no private key; its payment key is then the one given. -/
theorem ethsig_none (E : Env) (G : Getter) (keccak : Bytes → Bytes) (d : TaskDraw) (kw : Attrs)
    (m : Msg) (hk : (kw.map Prod.fst).Nodup) (h : taskFactory E G keccak d kw = .ok m)
    (hn : holds (getAttr kw p!"ethsig__disable") = true ∨
      (holds (getAttr kw p!"requestor_ethereum_public_key") = true ∧
        holds (getAttr kw p!"ethsig__privkey") = false)) :
    getAttr m.attrs p!"ethsig" = .none ∧ getAttr m.attrs p!"requestor_ethereum_public_key" =
      getAttr kw p!"requestor_ethereum_public_key" := by
  obtain ⟨keys, m2, m3, hkeys, hh, ha, a1, a2⟩ := task_ethsig hk h
  simp only [holds_eq] at hn
  rw [ha]
  rcases ethsig_hook hh with ⟨_, _, rfl⟩ | ⟨p, h3, h4, h5, _⟩ | ⟨_, _, _, rfl⟩ | ⟨_, h4, h5, _⟩
  · exact ⟨a1, a2⟩
  · rcases hn with hn | ⟨_, hn⟩
    · exact absurd hn h4
    · rw [h3] at hn
      cases p with
      | nil => exact absurd rfl h5
      | cons _ _ => cases hn
  · exact ⟨a1, a2⟩
  · rcases hn with hn | ⟨hn, _⟩
    · exact absurd hn h4
    · rw [a2] at h5; exact absurd hn h5

/-- C102: a payment signature by the private key of the payment key the task names is accepted by
`verify_ethsig`. -/
theorem paid_verifies (E : Env) (m : Msg) (priv pub : Bytes) (K : Spec.KeyPair E priv pub) (key : PStr)
    (h : PaidBy E m priv) (hk : getAttr m.attrs p!"requestor_ethereum_public_key" = .str key)
    (hx : HexText key pub) : verifyEthsig E m = .ok () := by
  obtain ⟨w, hh, s, h1, h2, h3, h4⟩ := h
  unfold verifyEthsig
  rw [h1, hk, (decode_hex_decision _ _).1.mpr hx]
  dsimp only [Msg.val, Val.asMsg]
  unfold verifySigWith
  rw [show (⟨w.cls, w.ty, w.ts, w.enc, w.sig, w.attrs⟩ : Msg) = w from rfl, h2]
  dsimp only
  rw [h4]
  exact (ecdsa_verify_decision E pub hh (.bytes s)).1.mpr ⟨K.length, (K.law _ _ h3).2⟩

/-! ### Examples -/

private def made (kw : Attrs) : Res Msg :=
  taskFactory toyEnv (fun _ _ _ => .ok .none) (fun b => (b ++ List.replicate 32 0).take 32) toyTaskDraws kw

private def pairArg (x : UInt8) : Val := .tuple [.bytes (toySk x), .bytes (toyVk x)]

private def signedWith (r : Res Msg) (x : UInt8) : Bool :=
  match r with
  | .ok m => getAttr m.attrs p!"requestor_ethereum_public_key" == .str (hexlify (toyVk x)) &&
      decide (verifyEthsig toyEnv m = .ok ())
  | .error _ => false

private def unsigned (r : Res Msg) : Bool :=
  match r with
  | .ok m => getAttr m.attrs p!"ethsig" == .none
  | .error _ => false

/-- A drawn pair, a given pair, a given private key with its public key, none at all, and a key without
private key. -/
example : signedWith (made []) 6 = true ∧ signedWith (made [(p!"ethsig__keys", pairArg 7)]) 7 = true ∧
    signedWith (made [(p!"ethsig__privkey", .bytes (toySk 7)),
      (p!"requestor_ethereum_public_key", .str (hexlify (toyVk 7)))]) 7 = true ∧
    unsigned (made [(p!"ethsig__disable", .bool true)]) = true ∧
    unsigned (made [(p!"requestor_ethereum_public_key", .str (hexlify (toyVk 7)))]) = true := by
  decide +kernel

/-- What is refused. -/
example : made [(p!"ethsig__key", pairArg 7)] = .error .typeError ∧
    made [(p!"task_id__x", .none)] = .error .typeError ∧
    made [(p!"ethsig__keys", pairArg 7), (p!"ethsig__disable", .bool true)] = .error .otherError ∧
    made [(p!"ethsig__privkey", .bytes (toySk 7))] = .error (.fieldError p!"requestor_ethereum_public_key") := by
  decide +kernel

/-- C102 refuted: a task given a pair of keys, and the public key of that pair as its payment key, is
made without a payment signature. -/
theorem ethsig_keys_refuted :
    ∃ (E : Env) (G : Getter) (keccak : Bytes → Bytes) (d : TaskDraw) (kw : Attrs) (m : Msg) (priv pub : Bytes),
      (kw.map Prod.fst).Nodup ∧ lookupName p!"ethsig__keys" kw = some (.tuple [.bytes priv, .bytes pub]) ∧
      lookupName p!"requestor_ethereum_public_key" kw = some (.str (hexlify pub)) ∧ Spec.KeyPair E priv pub ∧
      taskFactory E G keccak d kw = .ok m ∧ ¬ PaidBy E m priv := by
  have h : unsigned (made [(p!"ethsig__keys", pairArg 7),
      (p!"requestor_ethereum_public_key", .str (hexlify (toyVk 7)))]) = true := by decide +kernel
  cases hm : made [(p!"ethsig__keys", pairArg 7),
      (p!"requestor_ethereum_public_key", .str (hexlify (toyVk 7)))] with
  | error e => rw [hm] at h; cases h
  | ok m =>
    rw [hm] at h
    refine ⟨toyEnv, _, _, toyTaskDraws, _, m, toySk 7, toyVk 7, by decide, rfl, rfl,
      ⟨toy_law, rfl, by decide⟩, hm, ?_⟩
    rintro ⟨w, hh, s, _, _, _, e⟩
    dsimp only [unsigned] at h
    rw [e] at h
    cases h

end Verif.Props
