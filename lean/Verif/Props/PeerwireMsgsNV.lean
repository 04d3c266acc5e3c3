import Verif.Props.PeerwireMsgs
import Verif.Props.PeerwireTime
import Verif.Props.PeerwireNV
/-! # C70, C71: concrete streams of messages -/
namespace P2P

def exReq0 : Bytes := [20, 1] ++ b!"d8:msg_typei0e5:piecei0ee"
def exRej0 : Bytes := [20, 1] ++ b!"d8:msg_typei2e5:piecei0ee"
def exData0 : Bytes := [20, 1] ++ b!"d8:msg_typei1e5:piecei0e10:total_sizei24ee" ++ exMeta

/-- a keep-alive, an unchoke, the announcement, a request and a reject for the piece, an unknown extension, then the piece -/
def exStream : List Bytes := [[], [1], exExt 24, exReq0, exRej0, [20, 7, 1], exData0]

theorem exStream_verdict : verdict 0 0 .start exStream = .complete 7 6 { size := 24, pieces := [some (5, exMeta)] } := by decide +kernel

theorem exStream_ok (bodies : List Bytes) (hl : ∀ b ∈ bodies, b.length < 2 ^ 32) :
    Stream (calmEnv (exHandshake :: bodies.flatMap wire)) b!"cccccccccccccccccccc" b!"hhhhhhhhhhhhhhhhhhhh" (fun _ => []) exPool [] exHandshake bodies
      (bodies.length + 1) where
  calm := calmEnv_calm _
  ready := exPool_ready
  peer := rfl
  info := rfl
  handshake := exHandshake_ok
  delivers := calmEnv_delivers _
  lengths := hl
  rounds := Nat.le_refl _

/-- C70: the messages in between change nothing -/
example : ∃ s, FetchMetaData (calmEnv (exHandshake :: exStream.flatMap wire)) toyHash (fun _ _ => false) 8 b!"cccccccccccccccccccc" b!"hhhhhhhhhhhhhhhhhhhh"
    (fun _ => []) exPool = .returned (some exMeta) none s ∧ reads s.trace = 14 := by
  obtain ⟨s, h1, h2⟩ := C70_complete (exStream_ok exStream (by decide +kernel)) toyHash (fun _ _ => false) 7 6 _ exStream_verdict (by decide +kernel)
    (fun j d h _ => by simp at h; omega)
  rw [if_pos (by decide +kernel)] at h1
  exact ⟨s, h1, by rw [h2]; decide +kernel⟩

/-- C70: data for a piece that was not announced -/
example : ∃ s, FetchMetaData (calmEnv (exHandshake :: [exExt 24, [20, 1] ++ b!"d8:msg_typei1e5:piecei1ee"].flatMap wire)) toyHash (fun _ _ => false) 3
    b!"cccccccccccccccccccc" b!"hhhhhhhhhhhhhhhhhhhh" (fun _ => []) exPool = .returned none (some b!"FetchMetaData err") s ∧ reads s.trace ≤ 5 :=
  C70_failed (exStream_ok [exExt 24, [20, 1] ++ b!"d8:msg_typei1e5:piecei1ee"] (by decide +kernel)) toyHash (fun _ _ => false) 1 (by decide +kernel)

/-- C70: the peer stops after the announcement -/
example : ∃ s, FetchMetaData (calmEnv (exHandshake :: [exExt 24].flatMap wire)) toyHash (fun _ _ => false) 2
    b!"cccccccccccccccccccc" b!"hhhhhhhhhhhhhhhhhhhh" (fun _ => []) exPool = .returned none (some b!"FetchMetaData err") s :=
  C70_waiting (exStream_ok [exExt 24] (by decide +kernel)) toyHash (fun _ _ => false) (by decide +kernel)
    (fun tr size h => by simp [calmEnv, chunkEnv, h]; omega)

/-- C71: the time is over after the first message -/
def lateEnv (chunks : List Bytes) : PEnv := { calmEnv chunks with expired := fun tr => decide (2 ≤ reads tr) }

example : (match FetchMetaData (lateEnv exChunks) toyHash (fun _ _ => false) 10 b!"cccccccccccccccccccc" b!"hhhhhhhhhhhhhhhhhhhh" (fun _ => []) exPool with
    | .returned r e s => decide (.expired true ∈ s.trace ∧ r = none ∧ e = some b!"cannot completed download metadata" ∧ reads s.trace = 2 ∧ clocks s.trace = 1)
    | _ => false) = true := by decide +kernel

end P2P
