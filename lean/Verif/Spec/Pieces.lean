import Verif.Spec.Download
/-! # Specification: the pieces an honest peer sends, and what the shared buffers make of them (C44) -/
namespace P2P

/-- Metadata in pieces: 16384 bytes each, except that the last one may be shorter. -/
def IsPieces (ps : List Bytes) : Prop :=
  ∃ init last, ps = init ++ [last] ∧ (∀ p ∈ init, p.length = 16384) ∧ 1 ≤ last.length ∧ last.length ≤ 16384

/-- the last of the `P` pieces that is received into the buffer of piece `i`, if `m` buffers take turns -/
def lastIn (m P i : Nat) : Nat := i + m * ((P - 1 - i) / m)

/-- What is in the place of piece `i` at the end: the piece itself if no other one follows in its buffer, or else the last one in that
buffer, and what it leaves over of the one before it (nothing, unless it is the short one). -/
def finalPiece (m : Nat) (ps : List Bytes) (i : Nat) : Bytes :=
  if lastIn m ps.length i = i then ps[i]?.getD []
  else over (ps[lastIn m ps.length i - m]?.getD []) (ps[lastIn m ps.length i]?.getD [])

/-- every piece is the start of the one `m` before it -/
def Periodic (m : Nat) (ps : List Bytes) : Prop :=
  ∀ (i : Nat) p p', ps[i]? = some p → ps[i + m]? = some p' → p' <+: p

end P2P
