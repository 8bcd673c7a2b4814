import Verif.Model.Enums
/-! # Specification: entries of file transfer tokens -/

namespace Verif.Spec

open Verif

/-- The fields of a file entry. -/
def fileFields : List PStr := [p!"path", p!"checksum", p!"size", p!"category"]

/-- The categories. -/
def fileCategories : List PStr := [p!"results", p!"resources"]

/-- Defaults of absent fields. -/
def fileDefault (k : PStr) : Val :=
  if k = p!"size" then .int 0
  else if k = p!"category" then .enum .ftCategory p!"results"
  else .str []

/-- A received file entry is acceptable: only known fields, and a known category if any. -/
def EntryOk (d : List (Val × Val)) : Prop :=
  (∀ key v, (key, v) ∈ d → ∃ k ∈ fileFields, key = .str k) ∧
  ∀ v, (.str p!"category", v) ∈ d → ∃ s ∈ fileCategories, v = .str s

/-- A file entry of a token: exactly the four fields, with a member as category. -/
def IsEntry (f : Val) : Prop :=
  ∃ items, f = .fdict .fileInfo items ∧ (items.map Prod.fst).Nodup ∧
    (∀ k, k ∈ items.map Prod.fst ↔ k ∈ fileFields) ∧
    ∃ s ∈ fileCategories, getAttr items p!"category" = .enum .ftCategory s

/-- The files of a token: nothing, or a list of entries. -/
def FilesOk (c : Cls) (as : Attrs) : Prop :=
  c = .FileTransferToken → getAttr as p!"files" = .none ∨
    ∃ l, getAttr as p!"files" = .list l ∧ ∀ f ∈ l, IsEntry f

end Verif.Spec
