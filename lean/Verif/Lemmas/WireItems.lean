import Verif.Lemmas.Wire
import Verif.Model.Message
/-! # Peers and file entries survive the wire -/

set_option linter.unusedSimpArgs false

namespace Verif

open Spec

theorem fdSetAll_conv {E : Env} {conv : PStr → Val → Res Val} {c : FDictId} {g : PStr → Val → Val} :
    ∀ {kw items : Attrs}, ((items ++ kw).map Prod.fst).Nodup →
    (∀ k ∈ kw.map Prod.fst, k ∈ c.items.map Prod.fst) →
    (∀ k v, (k, v) ∈ kw → conv k (g k v) = .ok v ∧ fdValidate E c k v = .ok ()) →
    fdSetAll E conv c items (kw.map fun p => (.str p.1, g p.1 p.2)) = .ok (items ++ kw)
  | [], items, _, _, _ => by simp [fdSetAll]
  | (k, v) :: rest, items, hn, hk, hv => by
    simp only [List.map_cons]
    unfold fdSetAll
    have hab : k ∉ items.map Prod.fst := by
      rw [List.map_append, List.nodup_append] at hn
      intro hm
      exact hn.2.2 k hm k (by simp) rfl
    have : fdSetV E conv c items (.str k) (g k v) = .ok (items ++ [(k, v)]) := by
      unfold fdSetV
      simp only [(hv k v (by simp)).1]
      unfold fdSet
      rw [(hv k v (by simp)).2]
      simp only
      rw [if_pos ((lookupName_isSome _ _).mpr (hk k (by simp))), setName_absent hab]
    rw [this]
    simp only
    rw [fdSetAll_conv (by simpa using hn) (fun k' h => hk k' (by simp [List.mem_map.mp h]))
      (fun k' v' h => hv k' v' (List.mem_cons_of_mem _ h))]
    simp

theorem fdBuild_conv {E : Env} {conv : PStr → Val → Res Val} {c : FDictId} {items : Attrs}
    {g : PStr → Val → Val} (hi : ItemsOk E c items)
    (hfull : ∀ k ∈ c.items.map Prod.fst, k ∈ items.map Prod.fst)
    (hconv : ∀ k v, (k, v) ∈ items → conv k (g k v) = .ok v) :
    fdBuild E conv c (items.map fun p => (.str p.1, g p.1 p.2)) = .ok (.fdict c items) := by
  unfold fdBuild
  rw [fdSetAll_conv (items := []) (by simpa using hi.nodup) hi.known
    (fun k v h => ⟨hconv k v h, hi.valid k v h⟩)]
  simp only [List.nil_append]
  rw [fdDefaults_full hfull]

theorem setName_map {n : PStr} {w : Val} : ∀ {items : Attrs}, (items.map Prod.fst).Nodup →
    n ∈ items.map Prod.fst →
    setName n w items = items.map fun p => (p.1, if p.1 = n then w else p.2)
  | (k, v) :: rest, hn, hm => by
    simp only [List.map_cons, List.nodup_cons] at hn
    unfold setName
    by_cases hk : k = n
    · subst hk
      simp only [if_true, List.map_cons]
      congr 1
      symm
      refine (List.map_congr_left (g := id) ?_).trans (List.map_id _)
      intro p hp
      have : p.1 ≠ k := fun e => hn.1 (List.mem_map.mpr ⟨p, hp, e⟩)
      simp [this]
    · simp only [if_neg hk, List.map_cons]
      congr 1
      refine setName_map hn.2 ?_
      simp only [List.map_cons, List.mem_cons] at hm
      rcases hm with h | h
      · exact absurd h.symm hk
      · exact h

theorem dictSet_map {n : PStr} {w : Val} : ∀ {items : Attrs}, (items.map Prod.fst).Nodup →
    n ∈ items.map Prod.fst →
    dictSet (.str n) w (items.map fun p => (.str p.1, p.2)) =
      items.map fun p => (.str p.1, if p.1 = n then w else p.2)
  | (k, v) :: rest, hn, hm => by
    simp only [List.map_cons, List.nodup_cons] at hn
    simp only [List.map_cons]
    unfold dictSet
    by_cases hk : k = n
    · subst hk
      rw [if_pos ((keyEq_str _ _).mpr rfl)]
      simp only [if_true]
      congr 1
      refine List.map_congr_left ?_
      intro p hp
      have : p.1 ≠ k := fun e => hn.1 (List.mem_map.mpr ⟨p, hp, e⟩)
      simp [this]
    · rw [if_neg (fun h => hk (by have := (keyEq_str _ _).mp h; injection this))]
      simp only [if_neg hk]
      congr 1
      refine dictSet_map hn.2 ?_
      simp only [List.map_cons, List.mem_cons] at hm
      rcases hm with h | h
      · exact absurd h.symm hk
      · exact h

theorem peer_wire {E : Env} {v : Val} (h : PeerOk E v) :
    ∃ y, serPeer v = .ok y ∧ Trip y (mkFDict E .peer) v := by
  obtain ⟨items, rfl, hd, hv⟩ := h
  obtain ⟨h1, h2⟩ := declared_items hd (fun k x hm => (hv k x hm).1)
  have hmem : p!"node" ∈ items.map Prod.fst := h2 _ (by decide)
  have hnode := mem_getAttr hmem
  have hlook := lookupName_of_mem hd.1 hnode
  have hsimple := (hv _ _ hnode).2
  rw [if_pos rfl] at hsimple
  obtain ⟨fs, d, e, hdict, hok, hcall, _, _⟩ := node_wire hsimple
  have huniq : ∀ x, (p!"node", x) ∈ items → x = getAttr items p!"node" := fun x hm =>
    (getAttr_of_mem hd.1 hm).symm
  have hdata : ∀ k x, (k, x) ∈ items → k ≠ p!"node" → Data x := fun k x hm hk => by
    have := (hv k x hm).2
    rwa [if_neg hk] at this
  refine ⟨.dict ((setName p!"node" (.dict d) items).map fun kv => (.str kv.1, kv.2)), ?_, ?_⟩
  · unfold serPeer
    simp only [hlook, hdict]
  · rw [setName_map hd.1 hmem]
    obtain ⟨w1, w2⟩ := dict_wire
      (kw := items.map fun p : PStr × Val => (p.1, if p.1 = p!"node" then Val.dict d else p.2))
      (by rw [List.map_map]; exact hd.1)
      (by
        intro k x hm
        obtain ⟨⟨k', x'⟩, hm', e⟩ := List.mem_map.mp hm
        injection e with e1 e2
        subst e1 e2
        by_cases hk : k' = p!"node"
        · simp only [if_pos hk]; exact hok
        · simp only [if_neg hk]; exact (data_wire (hdata k' x' hm' hk)).1)
    refine ⟨w1, ?_⟩
    rw [w2]
    unfold mkFDict fdArg Val.asDict
    simp only [fdConv]
    have : ((items.map fun p => (p.1, if p.1 = p!"node" then Val.dict d else p.2)).map
        fun p => (p.1, p.2.wireNorm)).map (fun p => (Val.str p.1, p.2)) =
        items.map fun p => (Val.str p.1,
          (fun k v => if k = p!"node" then Val.dict (Val.wireNormD d) else v) p.1 p.2) := by
      rw [List.map_map, List.map_map]
      refine List.map_congr_left ?_
      rintro ⟨k, x⟩ hp
      simp only [Function.comp]
      by_cases hk : k = p!"node"
      · simp only [if_pos hk, Val.wireNorm]
      · simp only [if_neg hk, (data_wire (hdata k x hp hk)).2]
    rw [this]
    refine fdBuild_conv
      (g := fun k v => if k = p!"node" then Val.dict (Val.wireNormD d) else v) h1 h2 ?_
    intro k x hm
    simp only [peerConv]
    by_cases hk : k = p!"node"
    · subst hk
      simp only [if_true, Val.asDict, Option.isSome_some, and_self]
      rw [huniq x hm]
      exact hcall
    · simp only [if_neg hk]
      rw [if_neg (fun h => hk h.1)]

theorem file_wire {E : Env} {v : Val} (h : FileOk E v) : Trip v (deserFileInfo E) v := by
  obtain ⟨items, rfl, hd, hv⟩ := h
  obtain ⟨h1, h2⟩ := declared_items hd (fun k x hm => (hv k x hm).1)
  have hmem : p!"category" ∈ items.map Prod.fst := h2 _ (by decide)
  have hcat := mem_getAttr hmem
  have huniq : ∀ x, (p!"category", x) ∈ items → x = getAttr items p!"category" := fun x hm =>
    (getAttr_of_mem hd.1 hm).symm
  obtain ⟨s, hs, e⟩ : ∃ s ∈ EnumId.ftCategory.values,
      getAttr items p!"category" = .enum .ftCategory s := (hv _ _ hcat).1 rfl
  obtain ⟨w1, w2⟩ := fdict_wire (c := .fileInfo) hd.1 (by
    intro k x hm
    by_cases hk : k = p!"category"
    · subst hk; rw [huniq x hm, e]; rfl
    · exact (data_wire ((hv k x hm).2 hk)).1)
  refine ⟨w1, ?_⟩
  rw [w2]
  have hn' : ((items.map fun p => (p.1, p.2.wireNorm)).map Prod.fst).Nodup := by
    rw [List.map_map]; exact hd.1
  have hm' : p!"category" ∈ (items.map fun p => (p.1, p.2.wireNorm)).map Prod.fst := by
    rw [List.map_map]; exact hmem
  have hget : dictGet (.str p!"category")
      ((items.map fun p => (p.1, p.2.wireNorm)).map fun p => (Val.str p.1, p.2)) = some (.str s) := by
    rw [dictGet_textKeys]
    refine lookupName_of_mem hn' (List.mem_map.mpr ⟨_, hcat, ?_⟩)
    rw [e]; rfl
  unfold deserFileInfo
  simp only [hget]
  have hl : EnumId.ftCategory.lookup (.str s) = some (.enum .ftCategory s) := by
    simp [EnumId.lookup, hs]
  rw [hl]
  simp only
  rw [dictSet_map hn' hm']
  unfold mkFDict fdArg Val.asDict
  simp only [fdConv]
  have : ((items.map fun p => (p.1, p.2.wireNorm)).map fun p =>
      (Val.str p.1, if p.1 = p!"category" then Val.enum .ftCategory s else p.2)) =
      items.map fun p => (Val.str p.1, p.2) := by
    rw [List.map_map]
    refine List.map_congr_left ?_
    rintro ⟨k, x⟩ hp
    simp only [Function.comp]
    by_cases hk : k = p!"category"
    · subst hk; simp only [if_true]; rw [huniq x hp, e]
    · simp only [if_neg hk, (data_wire ((hv k x hp).2 hk)).2]
  rw [this]
  exact fdBuild_of h1 h2 (fun k v _ => rfl)

/-- Element-wise trips make a trip of the list. -/
theorem list_trip {ser f : Val → Res Val} {P : Val → Prop}
    (h : ∀ x, P x → ∃ y, ser x = .ok y ∧ Trip y f x) :
    ∀ {l : List Val}, (∀ x ∈ l, P x) →
    ∃ r, mapRes ser l = .ok r ∧ Val.wireOkL r = true ∧ mapRes f (Val.wireNormL r) = .ok l
  | [], _ => ⟨[], rfl, rfl, rfl⟩
  | x :: xs, hl => by
    obtain ⟨y, h1, h2, h3⟩ := h x (hl x (by simp))
    obtain ⟨r, h4, h5, h6⟩ := list_trip h (l := xs) (fun z hz => hl z (by simp [hz]))
    refine ⟨y :: r, ?_, ?_, ?_⟩
    · unfold mapRes; rw [h1]; simp only; rw [h4]
    · simp only [Val.wireOkL, h2, h5, Bool.and_self]
    · simp only [Val.wireNormL]; unfold mapRes; rw [h3]; simp only; rw [h6]

end Verif
