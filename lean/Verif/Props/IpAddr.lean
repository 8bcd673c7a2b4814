import Verif.Lemmas.IpAddr
import Verif.Lemmas.Toy
import Verif.Props.Validators
import Verif.Props.Schema
/-!
# C72: IP addresses
-/

namespace Verif.Props

open Verif Spec

/-! ### Characters -/

private theorem hextets_free {s : PStr} {xs : List Nat} (h : Hextets s xs) {c : Char}
    (hc : hexVal c = none) (hd : c ≠ ':') : c ∉ s := by
  induction h with
  | one h => exact hextet_free h hc
  | cons h _ ih =>
    simp only [List.mem_append, List.mem_cons, not_or]
    exact ⟨hextet_free h hc, hd, ih⟩

private theorem quad_free {pol : IpPolicy} {s : PStr} {w x y z : Nat} (h : Quad pol s w x y z) {c : Char}
    (hc : ¬ (48 ≤ c.toNat ∧ c.toNat ≤ 57)) (hd : c ≠ '.') : c ∉ s := by
  cases h with
  | mk h1 h2 h3 h4 =>
    simp only [List.mem_append, List.mem_cons, not_or]
    exact ⟨⟨⟨octet_free h1 hc, hd, octet_free h2 hc⟩, hd, octet_free h3 hc⟩, hd, octet_free h4 hc⟩

private theorem groups_free {pol : IpPolicy} {s : PStr} {xs : List Nat} (h : Groups pol s xs) {c : Char}
    (h0 : ¬ (48 ≤ c.toNat ∧ c.toNat ≤ 57)) (hc : hexVal c = none) (h1 : c ≠ ':') (h2 : c ≠ '.') :
    c ∉ s := by
  induction h with
  | one h => exact hextet_free h hc
  | quad h => exact quad_free h h0 h2
  | cons h _ ih =>
    simp only [List.mem_append, List.mem_cons, not_or]
    exact ⟨hextet_free h hc, h1, ih⟩

private theorem ipv6_free {pol : IpPolicy} {s : PStr} {xs : List Nat} (h : Ipv6 pol s xs) {c : Char}
    (h0 : ¬ (48 ≤ c.toNat ∧ c.toNat ≤ 57)) (hc : hexVal c = none) (h1 : c ≠ ':') (h2 : c ≠ '.') :
    c ∉ s := by
  cases h with
  | full h _ => exact groups_free h h0 hc h1 h2
  | gap hl hr _ =>
    simp only [List.mem_append, List.mem_cons, not_or]
    refine ⟨⟨?_, h1, h1, by simp⟩, ?_⟩
    · rcases hl with ⟨rfl, _⟩ | hl
      · simp
      · exact hextets_free hl hc h1
    · rcases hr with ⟨rfl, _⟩ | hr
      · simp
      · exact groups_free hr h0 hc h1 h2

/-- A version 6 address has no `%` and no `/`. -/
private theorem ipv6_plain {pol : IpPolicy} {s : PStr} {xs : List Nat} (h : Ipv6 pol s xs) :
    '%' ∉ s ∧ '/' ∉ s :=
  ⟨ipv6_free h (by decide) (by decide) (by decide) (by decide),
    ipv6_free h (by decide) (by decide) (by decide) (by decide)⟩

private theorem ipText_iff (pol : IpPolicy) (s : PStr) : ipAddressOk pol (.str s) = true ↔ IpText pol s := by
  unfold ipAddressOk
  dsimp only
  rw [Bool.or_eq_true]
  constructor
  · rintro (h | h)
    · obtain ⟨⟨w, x, y, z⟩, h⟩ := Option.isSome_iff_exists.mp h
      exact .v4 ((parseIpv4_iff _ _ _ _ _ _).mp h)
    · split at h
      · rename_i a ha
        obtain ⟨xs, hx⟩ := Option.isSome_iff_exists.mp h
        rw [parseIpv6_iff] at hx
        unfold splitScope at ha
        split at ha
        · cases ha
        rename_i hslash
        rw [List.contains_iff_mem] at hslash
        split at ha
        · rename_i hsc
          split at ha
          · rename_i b hs
            injection ha with ha
            have := joinC_split '%' s
            rw [hs, ha] at this
            simp only [joinC] at this
            exact .v6 (this ▸ hx)
          · rename_i b z hs
            split at ha
            · cases ha
            rename_i hz
            injection ha with ha
            have e := joinC_split '%' s
            rw [hs, ha] at e
            simp only [joinC] at e
            rw [← e] at hslash ⊢
            simp only [List.mem_append, List.mem_cons, not_or] at hslash
            exact .zone hsc hx hz (splitC_free '%' s z (by rw [hs]; simp)) hslash.2.2
          · cases ha
        · injection ha with ha
          exact .v6 (ha ▸ hx)
      · cases h
  · intro h
    cases h with
    | v4 h =>
      left
      rw [(parseIpv4_iff _ _ _ _ _ _).mpr h]
      rfl
    | v6 h =>
      right
      obtain ⟨h1, h2⟩ := ipv6_plain h
      have : splitScope pol s = some s := by
        unfold splitScope
        rw [if_neg (by rw [List.contains_iff_mem]; exact h2), splitC_none h1]
        split <;> rfl
      rw [this]
      simp only [(parseIpv6_iff _ _ _).mpr h]
      rfl
    | @zone a xs z hsc h hz hp hsl =>
      right
      obtain ⟨h1, h2⟩ := ipv6_plain h
      have : splitScope pol (a ++ '%' :: z) = some a := by
        unfold splitScope
        rw [if_neg, if_pos hsc, splitC_sep, splitC_none h1, splitC_none hp]
        · dsimp only [List.singleton_append]
          rw [if_neg hz]
        · rw [List.contains_iff_mem]
          simp only [List.mem_append, List.mem_cons, not_or]
          exact ⟨h2, by decide, hsl⟩
      rw [this]
      simp only [(parseIpv6_iff _ _ _).mpr h]
      rfl

/-- C72: `ipaddress.ip_address` accepts exactly the texts of the grammar, and besides text packed
addresses and numbers. -/
theorem ip_decision (pol : IpPolicy) (v : Val) : ipAddressOk pol v = true ↔ IpValue pol v := by
  cases v with
  | str s =>
    rw [ipText_iff]
    exact ⟨.text, fun h => by cases h; assumption⟩
  | int i =>
    simp only [ipAddressOk, Bool.and_eq_true, decide_eq_true_eq]
    exact ⟨fun h => .number h.1 h.2, fun h => by cases h; exact ⟨by assumption, by assumption⟩⟩
  | bytes b =>
    simp only [ipAddressOk, Bool.or_eq_true, beq_iff_eq]
    exact ⟨.packed, fun h => by cases h; assumption⟩
  | bool b => exact ⟨fun _ => .truth, fun _ => rfl⟩
  | _ =>
    simp only [ipAddressOk, Bool.false_eq_true, false_iff]
    intro h
    cases h

/-- C72: `validate_ipaddress` accepts these values and raises a `FieldError` naming the field for all
others. -/
theorem validate_ip_decision (E : Env) (pol : IpPolicy) (hE : E.ipOk = ipAddressOk pol) (field : PStr)
    (v : Val) :
    (IpValue pol v → Validator.ipaddress.run E field v = .ok ()) ∧
    (¬ IpValue pol v → Validator.ipaddress.run E field v = .error (.fieldError field)) := by
  rw [← ip_decision]
  unfold Validator.run Validator.accepts
  rw [hE]
  cases h : ipAddressOk pol v <;> simp [h]

/-- C72: a text denotes one address only: no text is both of version 4 and of version 6, and the four
octets or eight hextets are determined. -/
theorem ip_unambiguous (pol : IpPolicy) (s : PStr) :
    (∀ a b c d xs, Quad pol s a b c d → ¬ Ipv6 pol s xs) ∧
    (∀ a b c d a' b' c' d', Quad pol s a b c d → Quad pol s a' b' c' d' →
      a = a' ∧ b = b' ∧ c = c' ∧ d = d') ∧
    (∀ xs ys, Ipv6 pol s xs → Ipv6 pol s ys → xs = ys ∧ xs.length = 8) := by
  refine ⟨?_, ?_, ?_⟩
  · intro a b c d xs h4 h6
    rw [← parseIpv6_iff] at h6
    unfold parseIpv6 at h6
    dsimp only at h6
    rw [splitC_none (quad_free h4 (by decide) (by decide))] at h6
    simp at h6
  · intro a b c d a' b' c' d' h1 h2
    rw [← parseIpv4_iff] at h1 h2
    rw [h1] at h2
    simpa using h2
  · intro xs ys h1 h2
    have hx := (parseIpv6_iff _ _ _).mpr h1
    rw [(parseIpv6_iff _ _ _).mpr h2] at hx
    refine ⟨(Option.some.inj hx).symm, ?_⟩
    cases h1 with
    | full _ h => exact h
    | gap _ _ h => simp only [List.length_append, List.length_replicate]; omega

private theorem octet_mono {p q : IpPolicy} (h : Stricter p q) {s : PStr} {n : Nat} (ho : Octet p s n) :
    Octet q s n := by
  refine ⟨ho.value, ho.some, ho.three, ho.byte, fun hz => ?_⟩
  rcases h.1 with h1 | h1 | h1
  · rcases ho.zeros hz with h2 | ⟨h2, _⟩ <;> rw [h1] at h2 <;> cases h2
  · exact Or.inl h1
  · rw [← h1]; exact ho.zeros hz

private theorem quad_mono {p q : IpPolicy} (h : Stricter p q) {s : PStr} {a b c d : Nat}
    (hq : Quad p s a b c d) : Quad q s a b c d := by
  cases hq with
  | mk h1 h2 h3 h4 => exact .mk (octet_mono h h1) (octet_mono h h2) (octet_mono h h3) (octet_mono h h4)

private theorem groups_mono {p q : IpPolicy} (h : Stricter p q) {s : PStr} {xs : List Nat}
    (hg : Groups p s xs) : Groups q s xs := by
  induction hg with
  | one h1 => exact .one h1
  | quad h1 => exact .quad (quad_mono h h1)
  | cons h1 _ ih => exact .cons h1 ih

private theorem ipv6_mono {p q : IpPolicy} (h : Stricter p q) {s : PStr} {xs : List Nat}
    (hg : Ipv6 p s xs) : Ipv6 q s xs := by
  cases hg with
  | full h1 h2 => exact .full (groups_mono h h1) h2
  | gap h1 h2 h3 => exact .gap h1 (h2.imp id (groups_mono h)) h3

/-- C72: what the strictest version of Python accepts (no leading zeros, no scope ids) every version
accepts, and what any version accepts the most lenient one does. -/
theorem ip_versions (p q : IpPolicy) (h : Stricter p q) (v : Val) (hv : ipAddressOk p v = true) :
    ipAddressOk q v = true := by
  rw [ip_decision] at hv ⊢
  cases hv with
  | packed h1 => exact .packed h1
  | number h1 h2 => exact .number h1 h2
  | truth => exact .truth
  | text ht =>
    refine .text ?_
    cases ht with
    | v4 h1 => exact .v4 (quad_mono h h1)
    | v6 h1 => exact .v6 (ipv6_mono h h1)
    | zone h0 h1 h2 h3 h4 => exact .zone (h.2 h0) (ipv6_mono h h1) h2 h3 h4

example (p : IpPolicy) : Stricter ⟨.refused, false⟩ p ∧ Stricter p ⟨.allowed, true⟩ :=
  ⟨⟨Or.inl rfl, by simp⟩, ⟨Or.inr (Or.inl rfl), by simp⟩⟩

/-- C72 refuted for all versions alike: `010.0.0.1` is an address for some and not for others. -/
theorem ip_versions_refuted :
    ∃ v, ipAddressOk ⟨.allowed, false⟩ v = true ∧ ipAddressOk ⟨.ambiguous, false⟩ v = false ∧
      ipAddressOk ⟨.refused, true⟩ v = false :=
  ⟨.str p!"010.0.0.1", by decide +kernel⟩

/-- C72 refuted for text only: numbers, bools and bytes pass as addresses, whatever the version. -/
theorem ip_not_text_refuted (pol : IpPolicy) (E : Env) (hE : E.ipOk = ipAddressOk pol) (field : PStr) :
    Validator.ipaddress.run E field (.int 5) = .ok () ∧
    Validator.ipaddress.run E field (.bool false) = .ok () ∧
    Validator.ipaddress.run E field (.bytes [1, 2, 3, 4]) = .ok () :=
  ⟨(validate_ip_decision E pol hE field _).1 (.number (by decide) (by decide)),
    (validate_ip_decision E pol hE field _).1 .truth,
    (validate_ip_decision E pol hE field _).1 (.packed (Or.inl rfl))⟩

/-- Some addresses and some other texts. -/
example : ([p!"1.2.3.4", p!"255.255.255.255", p!"::", p!"::1", p!"1:2:3:4:5:6:7::", p!"fe80::1%eth0",
      p!"::ffff:1.2.3.4", p!"1:2:3:4:5:6:1.2.3.4", p!"ABCD:0:0:00ef::"].all fun s =>
        ipAddressOk ⟨.refused, true⟩ (.str s)) = true ∧
    ([p!"", p!"1.2.3", p!"1.2.3.256", p!"1.2.3.4.5", p!"1..2.3", p!":::", p!":1::2", p!"1::2::3",
      p!"1:2:3:4:5:6:7:8::", p!"1:2:3:4:5:6:7", p!"12345::", p!"::1.2.3", p!"::1.2.3.4:5", p!"::g",
      p!"fe80::1%", p!"fe80::1%a%b", p!"::1/64", p!" ::1", p!"01.2.3.4"].any fun s =>
        ipAddressOk ⟨.refused, true⟩ (.str s)) = false ∧
    parseIpv6 ⟨.refused, true⟩ p!"1::ffff:10.0.0.1" = some [1, 0, 0, 0, 0, 0xffff, 0xa00, 1] := by
  decide +kernel

/-- An environment as the hypotheses ask for. -/
example : ({ toyEnv with ipOk := ipAddressOk ⟨.ambiguous, false⟩ } : Env).ipOk =
    ipAddressOk ⟨.ambiguous, false⟩ := rfl

end Verif.Props
