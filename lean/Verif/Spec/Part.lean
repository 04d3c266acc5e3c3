import Verif.Spec.Bencode
/-! # Specification: a message that lost its end (C88) -/
namespace P2P

/-- `PartOf w v`: nothing in `w` is invented or changed with respect to `v`. Lists are shorter at the end, dictionaries lack entries;
integers and strings are the same. -/
inductive PartOf : GoVal → GoVal → Prop where
  | same {v w : GoVal} : DeepEq v w → PartOf v w
  | list {l m : List GoVal} (hlen : l.length ≤ m.length)
      (h : ∀ (i : Nat) v w, l[i]? = some v → m[i]? = some w → PartOf v w) : PartOf (.list l) (.list m)
  | dict {e d : Entries} (hdom : ∀ k, (e.lookup k).isSome = true → (d.lookup k).isSome = true)
      (h : ∀ k v w, e.lookup k = some v → d.lookup k = some w → PartOf v w) : PartOf (.dict e) (.dict d)

end P2P
