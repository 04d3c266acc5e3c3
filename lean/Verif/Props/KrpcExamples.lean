import Verif.Props.KrpcHistory
import Verif.Props.RouteTable
/-! # Concrete packets and histories meeting the hypotheses of C27 - C34 -/
namespace P2P

/-- our node id in the examples -/
def exId : Bytes := b!"aaaaaaaaaaaaaaaaaaaa"
/-- a small environment -/
def exK : KEnv := { env := env0, cap := fun n => n + 2, nodeId := exId }
/-- a system in which our query `03e9` is pending, the route table accepts every node, and numbers count up -/
def exO : Oracle where
  lookup := fun _ t => if t = b!"03e9" then some (crawlQuery exId 1001) else none
  addNode := fun _ _ => none
  nextTx := fun tr => 1002 + UInt16.ofNat (drawn tr).length
  sendFails := fun _ => false
  order := fun _ d => d
  stack := fun _ => b!"stack"

theorem exO_fair : exO.Fair := fun _ _ h => ⟨h, .refl _⟩

def peerAddr : UDPAddr := { ip := [10, 0, 0, 1], port := 6881 }

/-- an announce_peer query -/
def exAnnounce : Bytes :=
  b!"d1:ad2:id20:bbbbbbbbbbbbbbbbbbbb9:info_hash20:hhhhhhhhhhhhhhhhhhhh4:porti6881e5:token2:xye1:q13:announce_peer1:t2:zz1:y1:qe"
def exArgs : Entries :=
  [(b!"id", .str b!"bbbbbbbbbbbbbbbbbbbb"), (b!"info_hash", .str b!"hhhhhhhhhhhhhhhhhhhh"), (b!"port", .int 6881),
   (b!"token", .str b!"xy")]
def exDict : Entries :=
  [(b!"a", .dict exArgs), (b!"q", .str b!"announce_peer"), (b!"t", .str b!"zz"), (b!"y", .str b!"q")]

/-- hypotheses of C27 and C34: an answerable query ... -/
example : IsQuery exAnnounce exDict b!"zz" b!"announce_peer" ∧ Answerable exDict b!"announce_peer" :=
  ⟨⟨⟨exAnnounce.length, by decide +kernel⟩, by decide +kernel, by decide +kernel, by decide +kernel⟩,
   by simp [methods], exArgs, rfl, ⟨_, rfl, rfl⟩, fun _ => ⟨_, rfl⟩, fun _ => ⟨_, rfl⟩⟩
/-- ... and one that is not (no port) -/
def exBad : Bytes := b!"d1:ad2:id20:bbbbbbbbbbbbbbbbbbbb9:info_hash1:he1:q13:announce_peer1:t2:zz1:y1:qe"
example : ∃ d, IsQuery exBad d b!"zz" b!"announce_peer" ∧ ¬ Answerable d b!"announce_peer" := by
  refine ⟨[(b!"a", .dict [(b!"id", .str b!"bbbbbbbbbbbbbbbbbbbb"), (b!"info_hash", .str b!"h")]),
    (b!"q", .str b!"announce_peer"), (b!"t", .str b!"zz"), (b!"y", .str b!"q")],
    ⟨⟨exBad.length, by decide +kernel⟩, by decide +kernel, by decide +kernel, by decide +kernel⟩, ?_⟩
  rintro ⟨-, a, ha, -, -, hp⟩
  obtain ⟨p, hp⟩ := hp rfl
  simp only [List.lookup, show (b!"a" == b!"a") = true from rfl, Option.some.injEq, GoVal.dict.injEq] at ha
  subst ha
  simp [List.lookup] at hp

/-- what the server does with these two -/
example : (dhtPacket exK exO { addr := peerAddr, bytes := exAnnounce }).map (fun r => (sends r.trace, enqueued r.trace)) =
    some ([(peerAddr, b!"d1:t2:zz1:y1:r1:rd2:id20:aaaaaaaaaaaaaaaaaaaaee")],
      [{ req := { txId := b!"zz", qType := b!"announce_peer", body := some exArgs, handler := none }, addr := peerAddr }]) := by
  decide +kernel
example : (dhtPacket exK exO { addr := peerAddr, bytes := exBad }).map (fun r => (sends r.trace, enqueued r.trace)) =
    some ([(peerAddr, b!"d1:t2:zz1:y1:e1:eli203e" ++
      EncodeString (bizText b!"cannot find port's val" b!"stack") ++ b!"ee")], []) := by
  decide +kernel

/-- hypotheses of C28: an error message; a packet that makes the decoder panic; a query without transaction id -/
example : (dhtPacket exK exO { addr := peerAddr, bytes := b!"d1:eli201e3:abce1:t2:zz1:y1:ee" }).map (·.trace) = some [] ∧
    (dhtPacket exK exO { addr := peerAddr, bytes := b!"d1:t-3:" }).map (·.trace) = some [] ∧
    (dhtPacket exK exO { addr := peerAddr, bytes := b!"d1:q4:ping1:y1:qe" }).map (·.trace) = some [] := by
  decide +kernel

/-- two announced nodes -/
def exNode (c : UInt8) : NodeInfo := { id := List.replicate 20 c, addr := { ip := [10, 0, 0, c], port := 6881 } }
def exNodes : List NodeInfo := [exNode 1, exNode 2]
/-- a find_node response to query `03e9` -/
def exBody : Entries := [(b!"id", .str b!"bbbbbbbbbbbbbbbbbbbb"), (b!"nodes", .str (joinNodeInfos exNodes))]
def exResp : Bytes :=
  b!"d1:rd2:id20:bbbbbbbbbbbbbbbbbbbb5:nodes52:" ++ joinNodeInfos exNodes ++ b!"e1:t4:03e91:y1:re"

/-- hypotheses of C30 and C33 -/
theorem exResp_isResponse : IsResponse exResp b!"03e9" exBody :=
  ⟨⟨[(b!"r", .dict exBody), (b!"t", .str b!"03e9"), (b!"y", .str b!"r")], exResp.length, by decide +kernel,
    by decide +kernel, by decide +kernel, by decide +kernel⟩, _, rfl⟩
example : exO.lookup [] b!"03e9" = some (crawlQuery exId 1001) ∧ (crawlQuery exId 1001).handler.isSome = true ∧
    (crawlQuery exId 1001).qType = b!"find_node" ∧ parseNodeInfo (joinNodeInfos exNodes) = .ok exNodes := by
  decide +kernel
/-- two nodes accepted, two queries -/
example : (dhtPacket exK exO { addr := peerAddr, bytes := exResp }).map
      (fun r => ((sends r.trace).map Prod.fst, drawn r.trace, (invoked r.trace).length)) =
    some ([(exNode 1).addr, (exNode 2).addr], [1002, 1003], 1) := by
  decide +kernel
/-- a response nobody waits for -/
example : (dhtPacket exK exO { addr := peerAddr, bytes := b!"d1:rd2:id1:xe1:t2:zz1:y1:re" }).map (·.trace) =
    some [.lookup b!"zz" none] := by
  decide +kernel

/-- a history: the crawler bootstraps (goroutine 0); goroutine 1 handles a forged response and then goroutine 2 its
replay, arriving from elsewhere, interleaved -/
def exW0 : World := { reqs := [], txId := 1000, table := RouteTable.new (exNode 9) 8 160 }
def exForged : Bytes := b!"d1:rd2:id1:xe1:t4:03e91:y1:re"
def exQ : Request := crawlQuery exId 1001
def exR : Response := { txId := b!"03e9", body := some [(b!"id", .str b!"x")], isErr := false }
def exSent : Bytes := b!"d1:t4:03e91:y1:q1:q9:find_node1:ad2:id20:aaaaaaaaaaaaaaaaaaaa6:target20:aaaaaaaaaaaaaaaaaaaaee"
def exH : List (Nat × Event) :=
  [(0, .nextTx 1001), (0, .put exQ), (1, .lookup b!"03e9" (some exQ)), (0, .send peerAddr exSent false),
   (2, .lookup b!"03e9" (some exQ)), (2, .invoke exQ (some exR) (exNode 7).addr), (1, .invoke exQ (some exR) peerAddr)]
def exO1 : Oracle := { exO with nextTx := fun _ => 1001 }

theorem exH_history : ∃ w, History exK exW0 w exH ∧ w.reqs = [(b!"03e9", exQ)] := by
  refine ⟨{ exW0 with reqs := [(b!"03e9", exQ)], txId := 1001 }, ⟨?_, ?_⟩, rfl⟩
  · simp [exH, World.replay, World.apply, exW0, reqPut, exQ, crawlQuery, show txIdText 1001 = b!"03e9" from by decide +kernel]
  · intro i
    by_cases h0 : i = 0
    · subst h0
      exact ⟨.bootstrap (some peerAddr), exO1, [.nextTx 1001, .put exQ, .send peerAddr exSent false], fun _ _ h => ⟨h, .refl _⟩,
        by decide +kernel, by decide +kernel⟩
    · by_cases h1 : i = 1
      · subst h1
        exact ⟨.packet { addr := peerAddr, bytes := exForged }, exO,
          [.lookup b!"03e9" (some exQ), .invoke exQ (some exR) peerAddr], exO_fair, by decide +kernel, by decide +kernel⟩
      · by_cases h2 : i = 2
        · subst h2
          exact ⟨.packet { addr := (exNode 7).addr, bytes := exForged }, exO,
            [.lookup b!"03e9" (some exQ), .invoke exQ (some exR) (exNode 7).addr], exO_fair, by decide +kernel, by decide +kernel⟩
        · refine ⟨.packet { addr := peerAddr, bytes := [] }, exO, [], exO_fair, by decide +kernel, ?_⟩
          simp [projection, exH, List.filter, beq_eq_false_iff_ne.2 (Ne.symm h0), beq_eq_false_iff_ne.2 (Ne.symm h1),
            beq_eq_false_iff_ne.2 (Ne.symm h2)]

/-- hypotheses of C32: a constructed announce_peer query, and the reply matched to it -/
example : Constructed (WithAnnouncePeerMsg b!"0001" exId b!"h" b!"tok" 6881 (some genericH)) :=
  ⟨_, _, _, by decide, .inr (.inr (.inr ⟨_, _, _, by decide, rfl⟩))⟩

/-- hypothesis of `C33_undisturbed`: the interactions of the example, replayed on a route table -/
example : ∃ tr w', Fanout exId exNodes tr ∧ ({ exW0 with txId := 1001 } : World).replay exK.env tr = some w' ∧
    drawn tr = [1002, 1003] := by
  obtain ⟨tr, h1, h2⟩ := findNodeRespHandler_spec exK exO_fair exNodes { resp := none, trace := [] }
  have htr : tr = [.addNode (exNode 1) none, .nextTx 1002, .put (crawlQuery exId 1002),
      .send (exNode 1).addr b!"d1:t4:03ea1:y1:q1:q9:find_node1:ad2:id20:aaaaaaaaaaaaaaaaaaaa6:target20:aaaaaaaaaaaaaaaaaaaaee" false,
      .addNode (exNode 2) none, .nextTx 1003, .put (crawlQuery exId 1003),
      .send (exNode 2).addr b!"d1:t4:03eb1:y1:q1:q9:find_node1:ad2:id20:aaaaaaaaaaaaaaaaaaaa6:target20:aaaaaaaaaaaaaaaaaaaaee" false] := by
    have h3 : findNodeRespHandler exK exO exNodes { resp := none, trace := [] } = .ok () { resp := none, trace :=
      [.addNode (exNode 1) none, .nextTx 1002, .put (crawlQuery exId 1002),
      .send (exNode 1).addr b!"d1:t4:03ea1:y1:q1:q9:find_node1:ad2:id20:aaaaaaaaaaaaaaaaaaaa6:target20:aaaaaaaaaaaaaaaaaaaaee" false,
      .addNode (exNode 2) none, .nextTx 1003, .put (crawlQuery exId 1003),
      .send (exNode 2).addr b!"d1:t4:03eb1:y1:q1:q9:find_node1:ad2:id20:aaaaaaaaaaaaaaaaaaaa6:target20:aaaaaaaaaaaaaaaaaaaaee" false] } := by
      rfl
    rw [h1] at h3
    simpa using h3
  have : ∃ w', ({ exW0 with txId := 1001 } : World).replay exK.env tr = some w' := by
    rw [← Option.isSome_iff_exists, htr]
    decide +kernel
  obtain ⟨w', hw⟩ := this
  exact ⟨tr, w', h2, hw, by rw [htr]; rfl⟩

end P2P
