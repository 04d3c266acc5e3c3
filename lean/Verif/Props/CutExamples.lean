import Verif.Props.CutPacket
import Verif.Props.KrpcExamples
/-! # Concrete cut datagrams for C88 -/
namespace P2P

/-- the arguments of an announce_peer query whose sender asks for the source port to be used (`implied_port` 1) -/
def cutArgs : Entries :=
  [(b!"id", .str b!"bbbbbbbbbbbbbbbbbbbb"), (b!"info_hash", .str b!"hhhhhhhhhhhhhhhhhhhh"), (b!"port", .int 1),
   (b!"token", .str b!"xy"), (b!"implied_port", .int 1)]
/-- that query on the wire -/
def cutBytes : Bytes :=
  b!"d1:t2:zz1:y1:q1:q13:announce_peer1:ad2:id20:bbbbbbbbbbbbbbbbbbbb9:info_hash20:hhhhhhhhhhhhhhhhhhhh4:porti1e5:token2:xy12:implied_porti1eee"
/-- the part of it that arrives when it is cut behind the port -/
def cutPart : Entries :=
  [(b!"id", .str b!"bbbbbbbbbbbbbbbbbbbb"), (b!"info_hash", .str b!"hhhhhhhhhhhhhhhhhhhh"), (b!"port", .int 1)]

/-- hypotheses of `C88_cut` and `C88_query`: the bytes encode the query, and their first 107 bytes still decode, to less than was sent. -/
example : EncodingOf (.dict (queryDict b!"zz" b!"announce_peer" cutArgs)) cutBytes ∧ InMemory cutBytes ∧
    DecodeDictNoLimit (cutBytes.take 107) =
      .ok ([(b!"t", .str b!"zz"), (b!"y", .str b!"q"), (b!"q", .str b!"announce_peer"), (b!"a", .dict cutPart)], 109) := by
  refine ⟨⟨.dict (queryDict b!"zz" b!"announce_peer" cutArgs), ?_, DeepEq.refl _, by decide +kernel⟩, by unfold InMemory; decide +kernel, by decide +kernel⟩
  refine ⟨by simp [queryDict], ?_⟩
  simp only [queryDict, GoVal.WFD, GoVal.WF]
  exact ⟨trivial, trivial, trivial, ⟨by simp [cutArgs], trivial, trivial, by simp [GoVal.WF, IsInt64], trivial, by simp [GoVal.WF, IsInt64], trivial⟩, trivial⟩

/-- the whole query makes the crawler fetch from the source port, the cut one from the port in the message: `implied_port` was lost. -/
example : (dhtPacket exK exO { addr := peerAddr, bytes := cutBytes }).map (fun r => enqueued r.trace) =
      some [{ req := { txId := b!"zz", qType := b!"announce_peer", body := some cutArgs, handler := none }, addr := peerAddr }] ∧
    (dhtPacket exK exO { addr := peerAddr, bytes := cutBytes.take 107 }).map (fun r => enqueued r.trace) =
      some [{ req := { txId := b!"zz", qType := b!"announce_peer", body := some cutPart, handler := none }, addr := peerAddr }] := by
  decide +kernel

/-- hypotheses of `C88_reply` and `C88_nodes_all_or_none`: a reply with one node; without its last byte it still runs the handler -/
example : EncodingOf (.dict (replyDict b!"03e9" [(b!"id", .str exId), (b!"nodes", .str (joinNodeInfos [exNode 1]))]))
    (b!"d1:t4:03e91:y1:r1:rd2:id20:aaaaaaaaaaaaaaaaaaaa5:nodes26:" ++ joinNodeInfos [exNode 1] ++ b!"ee") ∧
    CompactNode (exNode 1) ∧
    ((dhtPacket exK exO { addr := peerAddr, bytes :=
      (b!"d1:t4:03e91:y1:r1:rd2:id20:aaaaaaaaaaaaaaaaaaaa5:nodes26:" ++ joinNodeInfos [exNode 1] ++ b!"ee").take 84 }).map
        (fun r => ((offered r.trace).map Prod.fst, (invoked r.trace).length))) = some ([exNode 1], 1) := by
  refine ⟨⟨.dict (replyDict b!"03e9" [(b!"id", .str exId), (b!"nodes", .str (joinNodeInfos [exNode 1]))]), ?_, DeepEq.refl _, by decide +kernel⟩,
    by simp [CompactNode, exNode], by decide +kernel⟩
  exact ⟨by simp [replyDict], by simp [replyDict, GoVal.WFD, GoVal.WF]⟩

/-- hypothesis of `C88_end_to_end` -/
example : SmallQuery (WithAnnouncePeerMsg b!"0001" exId b!"hhhhhhhhhhhhhhhhhhhh" b!"tok" 6881 (some genericH)) :=
  ⟨_, _, _, by decide, by decide, .inr (.inr (.inr ⟨_, _, _, by decide, by decide, by decide, rfl⟩))⟩

end P2P
