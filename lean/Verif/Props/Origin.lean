import Verif.Lemmas.Items
import Verif.Lemmas.Signing
import Verif.Spec.Origin
import Verif.Props.RoundTrip
import Verif.Props.Ownership
import Verif.Props.TaskHeader
/-!
# C74: what is accepted was signed by the holder of the key

`log` is what the holder of a key signed.  The statements are of the form: what is accepted has
the content of something in the log, or it collides with something in the log, or its signature
is a forgery (it counts as made with the key over a digest the holder never signed).
-/

set_option linter.unusedSimpArgs false

namespace Verif.Props

open Verif Spec

/-! ### What the signing functions sign -/

/-- C74: the signature `dump` puts on a message is made over what the message covers, and so is
that of `sign_message`. -/
theorem message_signing (E : Env) (m m' : Msg) (key : Bytes) :
    (m.signMessage E key = .ok m' → ∃ x t s, (Signing.message m).Covers x t ∧
      E.sign key (signDigest E x t) = .ok s ∧ m'.sig = .bytes s) ∧
    (∀ encrypt pub b, dump E encrypt m (some key) pub = (.ok b, m') → m.sig = .none →
      m.cls.sign = true → key ≠ [] → ∃ x t s, (Signing.message m).Covers x t ∧
      E.sign key (signDigest E x t) = .ok s ∧ m'.sig = .bytes s) := by
  constructor
  · intro h
    unfold Msg.signMessage at h
    split at h
    · cases h
    rename_i d hd
    split at h
    · cases h
    rename_i s hs
    injection h with h
    obtain ⟨x, t, hc, rfl⟩ := short_form hd
    exact ⟨x, t, s, hc, hs, by rw [← h]⟩
  · intro encrypt pub b h hn hsg hk
    have hgk : givenKey (some key) = some key := by
      cases key with
      | nil => exact absurd rfl hk
      | cons a b => rfl
    have core : ∀ b0, Nonempty (Dumped E m (some key) ((givenKey pub).map encrypt) b0 m') →
        ∃ x t s, (Signing.message m).Covers x t ∧
          E.sign key (signDigest E x t) = .ok s ∧ m'.sig = .bytes s := by
      rintro b0 ⟨⟨sl, pl, _, sg, _, hsl, hpl, hm, _, _, _, hsig⟩⟩
      rcases hsig with ⟨a, _⟩ | ⟨_, ⟨_, k, d, a, hd, hsd⟩ | ⟨a | a, _⟩⟩
      · rw [hn] at a; cases a
      · rw [hgk] at a
        injection a with a
        subst a
        obtain ⟨hh, h1, rfl⟩ := digest_form hd
        exact ⟨_, _, sg, ⟨hh, sl, pl, h1, hsl, hpl, rfl, rfl⟩, hsd, by rw [hm]⟩
      · rw [hsg] at a; cases a
      · rw [hgk] at a; cases a
    have h' : serialize E m (some key) ((givenKey pub).map encrypt) = (.ok b, m') := h
    rcases serialize_ok h' with ⟨_, hd⟩ | ⟨_, b0, v, hd, _⟩
    · exact core _ hd
    · exact core _ hd

/-- C74: the signature `TaskHeader.sign` puts on a header is made over what the header covers. -/
theorem header_signing (E : Env) (fs fs' : Attrs) (key : Bytes) (h : headerSign E fs key = .ok fs') :
    ∃ x t s, (Signing.header fs).Covers x t ∧ E.sign key (signDigest E x t) = .ok s ∧
      getAttr fs' p!"signature" = .bytes s := by
  unfold headerSign at h
  split at h
  · cases h
  rename_i d hd
  split at h
  · cases h
  rename_i s hs
  injection h with h
  obtain ⟨x, t, hc, rfl⟩ := header_form hd
  exact ⟨x, t, s, hc, hs, by rw [← h, getAttr_setName, if_pos rfl]⟩

/-! ### What an accepted signature is worth -/

private theorem sha1_split {E : Env} (hlen : ∀ x, (E.sha1 x).length = 20) {x y a b : Bytes}
    (e : E.sha1 x ++ a = E.sha1 y ++ b) : E.sha1 x = E.sha1 y ∧ a = b := by
  have h1 : E.sha1 x = E.sha1 y := by
    have := congrArg (List.take 20) e
    rwa [List.take_left' (hlen x), List.take_left' (hlen y)] at this
  rw [h1] at e
  exact ⟨h1, List.append_cancel_left e⟩

/-- Equal digests: equal inputs or a clash. -/
private theorem digest_split {E : Env} (hlen : ∀ x, (E.sha1 x).length = 20) {x t y u : Bytes}
    (e : signDigest E x t = signDigest E y u) : (x = y ∧ t = u) ∨ Clash E x t y u := by
  by_cases h : E.sha1 x ++ t = E.sha1 y ++ u
  · obtain ⟨h1, h2⟩ := sha1_split hlen h
    by_cases hx : x = y
    · exact Or.inl ⟨hx, h2⟩
    · exact Or.inr (Or.inl ⟨hx, h1⟩)
  · exact Or.inr (Or.inr ⟨h, e⟩)

/-- C74: messages and task headers are signed with the same keys and the same kind of digest, but
what is signed for one is never what is signed for the other. -/
theorem header_not_message (m : Msg) (fs : Attrs) (x t y u : Bytes)
    (h1 : (Signing.message m).Covers x t) (h2 : (Signing.header fs).Covers y u) : x ≠ y := by
  obtain ⟨hd, s, p, hhd, _, _, rfl, _⟩ := h1
  obtain ⟨d, _, hy, _⟩ := h2
  exact dumps_list_ne_dict hhd hy

/-- A signature over type, timestamp and payload bytes. -/
private theorem origin_core {E : Env} (hlen : ∀ x, (E.sha1 x).length = 20) {pk : Bytes}
    {log : List Signing} {v : Val} {l : List Val} {hd p u : Bytes} {sig : Val} (hv : v = .list l)
    (hh : dumps v = .ok hd) (hr : E.recover sig (signDigest E (hd ++ p) u) = some (4 :: pk)) :
    (∃ m, .message m ∈ log ∧ dumps (.list [m.ty, m.ts]) = .ok hd ∧
      (∃ s, m.slots = .ok s ∧ dumps s = .ok p) ∧ helloVersion m = u) ∨
    (∃ a ∈ log, ∃ x t, a.Covers x t ∧ Clash E x t (hd ++ p) u) ∨ Forged E pk log sig (hd ++ p) u := by
  by_cases hf : ∀ a ∈ log, ∀ x t, a.Covers x t → signDigest E x t ≠ signDigest E (hd ++ p) u
  · exact Or.inr (Or.inr ⟨hr, hf⟩)
  have : ∃ a ∈ log, ∃ x t, a.Covers x t ∧ signDigest E x t = signDigest E (hd ++ p) u := by
    apply Classical.byContradiction
    intro hn
    exact hf fun a ha x t hx e => hn ⟨a, ha, x, t, hx, e⟩
  obtain ⟨a, ha, x, t, hx, e⟩ := this
  rcases digest_split hlen e with ⟨e1, e2⟩ | hc
  rotate_left
  · exact Or.inr (Or.inl ⟨a, ha, x, t, hx, hc⟩)
  cases a with
  | header fs =>
    obtain ⟨d, _, hy, _⟩ := hx
    subst hv
    exact absurd e1.symm (dumps_list_ne_dict hh hy)
  | message m =>
    obtain ⟨hd', s, q, h1, h2, h3, h4, h5⟩ := hx
    subst hv
    obtain ⟨rfl, rfl⟩ := dumps_prefix_free h1 hh (h4.symm.trans e1)
    exact Or.inl ⟨m, ha, h1, ⟨s, h2, h3⟩, h5.symm.trans e2⟩

/-- C74: a message that counts as signed by the holder of a key has the type, timestamp and
payload of a message the holder signed, or it collides with something they signed, or its
signature is a forgery. -/
theorem signed_origin (E : Env) (hlen : ∀ x, (E.sha1 x).length = 20) (pk : Bytes)
    (log : List Signing) (w : Msg) (sig : Val) (h : SignedBy E w sig pk) :
    ∃ y u, (Signing.message w).Covers y u ∧
    ((∃ m, .message m ∈ log ∧ SameContent m w) ∨
      (∃ a ∈ log, ∃ x t, a.Covers x t ∧ Clash E x t y u) ∨ Forged E pk log sig y u) := by
  obtain ⟨_, d, hd, hr⟩ := h
  obtain ⟨y, u, hc, rfl⟩ := short_form hd
  refine ⟨y, u, hc, ?_⟩
  obtain ⟨hb, s, p, h1, h2, h3, rfl, rfl⟩ := hc
  rcases origin_core hlen rfl h1 hr with ⟨m, hm, i1, ⟨s', i2, i3⟩, i4⟩ | h
  · exact Or.inl ⟨m, hm, ⟨hb, i1, h1⟩, ⟨s', s, p, i2, h2, i3, h3⟩, i4⟩
  · exact Or.inr h

/-- C74: a task header that verifies was signed by the holder of the key, likewise. -/
theorem header_origin (E : Env) (hlen : ∀ x, (E.sha1 x).length = 20) (pk : Bytes)
    (log : List Signing) (fs : Attrs) (h : headerVerifyF E fs pk = .ok ()) :
    ∃ y u, (Signing.header fs).Covers y u ∧
    ((∃ g, .header g ∈ log ∧ SameHeader g fs) ∨
      (∃ a ∈ log, ∃ x t, a.Covers x t ∧ Clash E x t y u) ∨
      Forged E pk log (getAttr fs p!"signature") y u) := by
  have hh : ∃ x, headerHash E fs = .ok x ∧
      E.recover (getAttr fs p!"signature") (E.sha3 x) = some (4 :: pk) := by
    cases hx : headerHash E fs with
    | error e =>
      unfold headerVerifyF at h
      split at h
      · cases h
      · rw [hx] at h; cases h
    | ok x => exact ⟨x, rfl, (((header_verify_decision E fs pk).2 x hx).mp h).2.2⟩
  obtain ⟨d, hd, hr⟩ := hh
  obtain ⟨y, u, hc, rfl⟩ := header_form hd
  refine ⟨y, u, hc, ?_⟩
  by_cases hf : ∀ a ∈ log, ∀ x t, a.Covers x t → signDigest E x t ≠ signDigest E y u
  · exact Or.inr (Or.inr ⟨hr, hf⟩)
  have : ∃ a ∈ log, ∃ x t, a.Covers x t ∧ signDigest E x t = signDigest E y u := by
    apply Classical.byContradiction
    intro hn
    exact hf fun a ha x t hx e => hn ⟨a, ha, x, t, hx, e⟩
  obtain ⟨a, ha, x, t, hx, e⟩ := this
  rcases digest_split hlen e with ⟨e1, e2⟩ | hc'
  rotate_left
  · exact Or.inr (Or.inl ⟨a, ha, x, t, hx, hc'⟩)
  cases a with
  | message m => exact absurd e1 (header_not_message m fs x t y u hx hc)
  | header g =>
    obtain ⟨d', g1, g2, _⟩ := hx
    obtain ⟨d, f1, f2, _⟩ := hc
    exact Or.inl ⟨g, ha, d', d, y, g1, f1, by rw [g2, e1], f2⟩

/-- Version texts contain no question mark. -/
private theorem version_chars {ours s : PStr} (h : verifyVersion ours s = .ok ()) :
    ∀ c ∈ s, c.toNat ≠ 63 := by
  intro c hc e
  have hq : c = '?' := char_ext e
  subst hq
  rcases verifyVersion_chars h _ hc with h | h | h | h | h
  · exact absurd ((isDec_iff _).mpr h) (by decide +kernel)
  · simp [IdChar] at h
  · exact absurd h (by decide)
  · exact absurd h (by decide)
  · exact absurd h (by decide)

private theorem ascii_inj : ∀ {v s : PStr}, (∀ c ∈ s, c.toNat < 128) → (∀ c ∈ s, c.toNat ≠ 63) →
    asciiReplace v = asciiReplace s → v = s
  | [], [], _, _, _ => rfl
  | [], _ :: _, _, _, e => by simp [asciiReplace] at e
  | _ :: _, [], _, _, e => by simp [asciiReplace] at e
  | a :: as, b :: bs, h1, h2, e => by
    unfold asciiReplace at e
    simp only [List.map_cons, List.cons.injEq] at e
    have ih := ascii_inj (v := as) (s := bs) (fun c hc => h1 c (by simp [hc]))
      (fun c hc => h2 c (by simp [hc])) e.2
    have hb := h1 b (by simp)
    have hb' := h2 b (by simp)
    have e1 := e.1
    rw [if_pos hb] at e1
    have hx : a.toNat = b.toNat := by
      have := congrArg UInt8.toNat e1
      split at this
      · simp only [UInt8.toNat_ofNat', Nat.reducePow] at this
        omega
      · simp only [UInt8.toNat_ofNat', Nat.reducePow] at this
        have h63 : (63 : UInt8).toNat = 63 := rfl
        have : (63 : Nat) = b.toNat % 256 := by simpa using this
        omega
    rw [ih, Char.toNat_inj.mp hx]

/-- C74: what `load` accepts with a sender's key has the class, type number, timestamp and payload
of a message the key's holder signed, and if that one holds what its class declares, then also
all its fields; or the frame collides with something the holder signed, or its signature is a
forgery. -/
theorem accepted_origin (E : Env) (hlen : ∀ x, (E.sha1 x).length = 20)
    (dec : Bytes → Bytes → Res Bytes) (data key : Bytes) (priv : Option Bytes) (ct : Bool)
    (now : Int) (x : Msg) (log : List Signing) (hk : key ≠ [])
    (honest : ∀ m, .message m ∈ log → m.ty = .int m.cls.typeId ∧ ∃ t, m.ts = .int t)
    (h : (load E dec (some data) priv (some key) ct now).2 = .ok x) (hs : x.cls.sign = true) :
    ∃ p hd, Payload (loadDecrypt dec priv) data p ∧
    dumps (.list [.int (frameType data), .int (frameTime data)]) = .ok hd ∧
    ((∃ m, .message m ∈ log ∧ x.cls = m.cls ∧ x.ty = m.ty ∧ x.ts = m.ts ∧
      (∃ s, m.slots = .ok s ∧ dumps s = .ok p) ∧ helloVersion m = versionBytes data ∧
      (WellTypedMsg E m → x.attrs = m.attrs)) ∨
    (∃ a ∈ log, ∃ y t, a.Covers y t ∧ Clash E y t (hd ++ p) (versionBytes data)) ∨
    Forged E key log (.bytes (frameSig (unversioned data))) (hd ++ p) (versionBytes data)) := by
  obtain ⟨_, hxt, hxty, hxts, _, p, hd, hp, hdm, hr⟩ :=
    load_authenticates E dec data key priv ct now x hk h hs
  refine ⟨p, hd, hp, hdm, ?_⟩
  rcases origin_core (log := log) (p := p) (u := versionBytes data) hlen rfl hdm hr with
    ⟨m, hm, hb1, ⟨s, hms, hsp⟩, hvm⟩ | h
  rotate_left
  · exact Or.inr h
  left
  obtain ⟨_, _, _, c, hc, _, p', version, hp', hver, hv, hparse, _⟩ := load_ok h
  have hpp : p' = p := by
    unfold Payload at hp hp'
    split at hp
    · rename_i hf
      rw [if_pos hf, hp] at hp'
      injection hp' with e
      exact e.symm
    · rename_i hf
      rw [if_neg hf] at hp'
      rw [hp, hp']
  subst hpp
  obtain ⟨slots, hl, hcon, _⟩ := parsePayload_ok hparse
  obtain ⟨as, has, hx⟩ := construct_ok hcon
  have hxc : x.cls = c := by rw [hx]
  obtain ⟨hty, t, hts⟩ := honest m hm
  have hint := (codec_prefix_free _ _ hd hd [] [] (by rw [hty, hts]; rfl) (by rfl) hb1 hdm rfl).1
  rw [hty, hts] at hint
  simp only [toLists, toListsL, Val.list.injEq, List.cons.injEq, Val.int.injEq, and_true] at hint
  obtain ⟨i1, i2⟩ := hint
  have hcls : x.cls = m.cls := typeId_inj (by rw [hxt]; omega)
  refine ⟨m, hm, hcls, by rw [hxty, hty, i1], by rw [hxts, hts, i2], ⟨s, hms, hsp⟩, hvm, ?_⟩
  intro hw
  obtain ⟨bs, hwt, hser, hshape⟩ := wellTyped_split hw
  have h1 := parse_wellTyped hwt hser hms hsp ⟨frameType data, frameTime data, frameFlag data⟩
    (frameSig (unversioned data)) version
  have h2 : parsePayload E m.cls ⟨frameType data, frameTime data, frameFlag data⟩
      (frameSig (unversioned data)) version none p' = .ok x := by
    unfold parsePayload
    rw [hl]
    simp only
    rw [← hcls, hxc, hcon]
    simp only [givenKey, ite_self]
  rw [h1] at h2
  injection h2 with h2
  rw [← h2]
  simp only
  rcases hshape with ⟨hne, ha⟩ | ⟨he, v, ha, hv'⟩
  · rw [hver, if_neg (by rw [← hxc, hcls]; exact hne), ha]
    simp [versionAttr]
  · have hch : c = .Hello := by rw [← hxc, hcls]; exact he
    rw [if_pos hch] at hver
    rw [ha, hver]
    have hasc := verifyVersion_ascii (hv hch)
    unfold helloVersion versionBytes at hvm
    rw [if_pos he, hv', if_pos (by rw [← hc, hch]; rfl), ← asciiReplace_decode _ hasc] at hvm
    simp only at hvm
    rw [ascii_inj hasc (version_chars (hv hch)) hvm]
    rfl

/-- C74: if `verify_owners` accepts a loaded message, then every task message in it has the
content of a message signed by the holder of the key of one of the parties expected for its
class; or it collides with something that holder signed, or its signature is a forgery. -/
theorem evidence_origin (E : Env) (hlen : ∀ x, (E.sha1 x).length = 20)
    (dec : Bytes → Bytes → Res Bytes) (data : Bytes) (priv pub : Option Bytes) (ct : Bool)
    (now : Int) (m : Msg) (log : Bytes → List Signing)
    (hl : (load E dec (some data) priv pub ct now).2 = .ok m) (ht : m.cls.isTask = true)
    (provider requestor concent : Option Bytes)
    (h : verifyOwners E m provider requestor concent = .ok ()) (w : Msg)
    (hw : Within m.val w.val) (hwt : w.cls.isTask = true) :
    ∃ o ∈ w.cls.expectedOwners, ∃ k, PartyKey concent w o k ∧
    ∃ y u, (Signing.message w).Covers y u ∧
    ((∃ g, .message g ∈ log k ∧ SameContent g w) ∨
      (∃ a ∈ log k, ∃ x t, a.Covers x t ∧ Clash E x t y u) ∨ Forged E k (log k) w.sig y u) := by
  obtain ⟨⟨o, ho, k, hk, hsig⟩, _⟩ := ownership_sound_loaded E dec data priv pub ct now m hl ht
    provider requestor concent h w hw hwt
  exact ⟨o, ho, k, hk, signed_origin E hlen k (log k) w w.sig hsig⟩

/-! ### Non-vacuity -/

private def removal (n : PStr) : Msg :=
  ⟨.RemoveTask, .int Cls.RemoveTask.typeId, .int 1500000000, .bool false, .none, [(p!"task_id", .str n)]⟩

private def removalFrame (n : PStr) : Bytes :=
  (dump toyEnv (fun _ b => .ok b) (removal n) (some (List.replicate 32 7)) none).1.toOption.getD []

/-- The hypotheses of `accepted_origin` can be met: a signed frame, and a signer who signed that
message and a header.  The message is in the log, so the frame is no forgery. -/
example : ∃ x, (load toyEnv (fun _ b => .ok b) (some (removalFrame p!"t")) none
      (some (List.replicate 64 7)) false 0).2 = .ok x ∧ x.cls.sign = true ∧
    x.attrs = [(p!"task_id", .str p!"t")] ∧
    (∀ m, .message m ∈ [Signing.message (removal p!"t"), .header []] →
      m.ty = .int m.cls.typeId ∧ ∃ t, m.ts = .int t) ∧
    (∀ b, (toyEnv.sha1 b).length = 20) ∧
    ∃ y u, (Signing.message (removal p!"t")).Covers y u ∧
      ¬ Forged toyEnv (List.replicate 64 7) [.message (removal p!"t"), .header []]
        (.bytes (frameSig (unversioned (removalFrame p!"t")))) y u := by
  have hc : ∃ y u, (Signing.message (removal p!"t")).Covers y u :=
    ⟨_, _, _, _, _, rfl, rfl, rfl, rfl, rfl⟩
  obtain ⟨y, u, hc⟩ := hc
  refine ⟨⟨.RemoveTask, .int Cls.RemoveTask.typeId, .int 1500000000, .bool false,
    .bytes (frameSig (unversioned (removalFrame p!"t"))), [(p!"task_id", .str p!"t")]⟩, by decide +kernel, rfl,
    rfl, ?_, fun b => by simp [toyEnv], y, u, hc, fun hf => hf.2 _ List.mem_cons_self y u hc rfl⟩
  intro m hm
  simp only [List.mem_cons, Signing.message.injEq, reduceCtorEq, List.not_mem_nil, or_false] at hm
  subst hm
  exact ⟨rfl, _, rfl⟩

/-- The hypotheses of `evidence_origin` can be met: a report acknowledged by the requestor, with
its `TaskToCompute` three levels down. -/
example : ∃ m, (load toyEnv (fun _ b => .ok b)
      (some ((dump toyEnv (fun _ b => .ok b) exampleChain none none).1.toOption.getD []))
      none none false 0).2 = .ok m ∧ m.cls.isTask = true ∧
    verifyOwners toyEnv m (some (List.replicate 64 7)) (some (List.replicate 64 5)) none = .ok () ∧
    m.val = exampleChain.val := by
  refine ⟨(load toyEnv (fun _ b => .ok b)
      (some ((dump toyEnv (fun _ b => .ok b) exampleChain none none).1.toOption.getD []))
      none none false 0).2.toOption.getD exampleChain, by decide +kernel, by decide +kernel,
      by decide +kernel, by decide +kernel⟩

end Verif.Props
