import Verif.Model.Dht
import Verif.Spec.RouteTable
import Verif.Props.Bencode
/-! # Specification vocabulary for the RPC server -/
namespace P2P

/-- The environment's map iteration orders are real: the encoder visits exactly the entries of the maps. -/
def Oracle.Fair (O : Oracle) : Prop :=
  ∀ tr d, GoVal.WF (.dict d) → Listing (.dict d) (.dict (O.order tr d))

/-- The datagrams handed to the socket, in order. -/
def sends (tr : List Event) : List (UDPAddr × Bytes) :=
  tr.filterMap fun e => match e with | .send a b _ => some (a, b) | _ => none
/-- The fetch jobs put into the torrent queue, in order. -/
def enqueued (tr : List Event) : List Job :=
  tr.filterMap fun e => match e with | .enqueue j => some j | _ => none
/-- The records written to the log of info hashes, in order. -/
def hashRecords (tr : List Event) : List HashRecord :=
  tr.filterMap fun e => match e with | .record r => some r | _ => none
/-- The requests registered as pending, in order. -/
def registered (tr : List Event) : List Request :=
  tr.filterMap fun e => match e with | .put r => some r | _ => none
/-- The requests handed to a request handler, in order. -/
def dispatched (tr : List Event) : List (Request × UDPAddr) :=
  tr.filterMap fun e => match e with | .dispatch r a => some (r, a) | _ => none
/-- The responses handed to a response handler, in order. -/
def invoked (tr : List Event) : List (Request × Option Response × UDPAddr) :=
  tr.filterMap fun e => match e with | .invoke r p a => some (r, p, a) | _ => none

/-- The method names this node serves. -/
def methods : List Bytes := [b!"ping", b!"find_node", b!"get_peers", b!"announce_peer"]

/-- The packet is a query: a dictionary with `y = "q"` and strings `t`, `q`. -/
structure IsQuery (bytes : Bytes) (d : Entries) (t q : Bytes) : Prop where
  decodes : ∃ n, DecodeDictNoLimit bytes = .ok (d, n)
  y : d.lookup b!"y" = some (.str b!"q")
  t : d.lookup b!"t" = some (.str t)
  q : d.lookup b!"q" = some (.str q)

/-- The query has everything its method requires. -/
def Answerable (d : Entries) (q : Bytes) : Prop :=
  q ∈ methods ∧ ∃ a, d.lookup b!"a" = some (.dict a) ∧
    (∃ id, a.lookup b!"id" = some (.str id) ∧ id.length = 20) ∧
    (q = b!"get_peers" ∨ q = b!"announce_peer" → ∃ h, a.lookup b!"info_hash" = some (.str h)) ∧
    (q = b!"announce_peer" → ∃ p, a.lookup b!"port" = some (.int p))

/-- The `r` dictionary each method answers with. -/
def replyBody (nodeId t q : Bytes) : Entries :=
  if q = b!"find_node" then [(b!"id", .str nodeId), (b!"nodes", .str [])]
  else if q = b!"get_peers" then [(b!"id", .str nodeId), (b!"token", .str t), (b!"nodes", .str [])]
  else [(b!"id", .str nodeId)]

/-- The find_node query the crawler sends under transaction number `v`. -/
def crawlQuery (nodeId : Bytes) (v : UInt16) : Request :=
  { txId := txIdText v, qType := b!"find_node"
    body := some [(b!"id", .str nodeId), (b!"target", .str nodeId)], handler := some genericH }

/-- The dictionary of a query message. -/
def queryDict (t q : Bytes) (args : Entries) : Entries :=
  [(b!"t", .str t), (b!"y", .str b!"q"), (b!"q", .str q), (b!"a", .dict args)]

/-- What happens for a list of announced nodes, one after the other: each is offered to the route table;
if the table accepts it, a fresh transaction id is drawn, and a find_node query under this id is
registered and sent to the node. -/
inductive Fanout (nodeId : Bytes) : List NodeInfo → List Event → Prop where
  | nil : Fanout nodeId [] []
  | refused {n : NodeInfo} {e : Bytes} {r : List NodeInfo} {tr : List Event} : Fanout nodeId r tr →
      Fanout nodeId (n :: r) (.addNode n (some e) :: tr)
  | accepted {n : NodeInfo} {v : UInt16} {b : Bytes} {failed : Bool} {r : List NodeInfo} {tr : List Event} :
      EncodingOf (.dict (queryDict (txIdText v) b!"find_node" [(b!"id", .str nodeId), (b!"target", .str nodeId)])) b →
      Fanout nodeId r tr →
      Fanout nodeId (n :: r)
        (.addNode n none :: .nextTx v :: .put (crawlQuery nodeId v) :: .send n.addr b failed :: tr)

/-- The packet is a response with a readable header: a dictionary with `y = "r"`, a string `t` and a
dictionary `r` with a string `id`. -/
structure IsResponse (bytes : Bytes) (t : Bytes) (body : Entries) : Prop where
  decodes : ∃ d n, DecodeDictNoLimit bytes = .ok (d, n) ∧ d.lookup b!"y" = some (.str b!"r") ∧
    d.lookup b!"t" = some (.str t) ∧ d.lookup b!"r" = some (.dict body)
  id : ∃ id, body.lookup b!"id" = some (.str id)

/-! ## The shared objects behind the interactions -/

/-- The pending requests (`requestMapping`), the transaction counter and the route table. -/
structure World where
  reqs : List (Bytes × Request)
  txId : UInt16
  table : RouteTable

/-- `requestMapping.Put` on the map -/
def reqPut : List (Bytes × Request) → Bytes → Request → List (Bytes × Request)
  | [], k, r => [(k, r)]
  | (k', r') :: m, k, r => if k' = k then (k, r) :: m else (k', r') :: reqPut m k r

/-- One interaction carried out on the shared objects; `none` if the recorded answer is not the one the
objects give. -/
def World.apply (env : Env) (w : World) : Event → Option World
  | .put r => some { w with reqs := reqPut w.reqs r.txId r }
  | .lookup t found => if found = w.reqs.lookup t then some w else none
  | .nextTx v => if v = w.txId + 1 then some { w with txId := v } else none
  | .addNode n err =>
    match w.table.AddNode env n with
    | .ok (t', e) => if err = e then some { w with table := t' } else none
    | _ => none
  | _ => some w

/-- A sequence of interactions carried out one after the other. -/
def World.replay (env : Env) (w : World) : List Event → Option World
  | [] => some w
  | e :: r =>
    match w.apply env e with
    | some w' => w'.replay env r
    | none => none

/-- The nodes the route table was asked to add, in order, with the answers. -/
def offered (tr : List Event) : List (NodeInfo × Option Bytes) :=
  tr.filterMap fun e => match e with | .addNode n x => some (n, x) | _ => none

/-- The transaction numbers drawn, in order. -/
def drawn (tr : List Event) : List UInt16 :=
  tr.filterMap fun e => match e with | .nextTx v => some v | _ => none

/-- Something a goroutine of the crawler does: handle one packet, or bootstrap from one host. -/
inductive Activity where
  | packet (pkt : RecvPacket)
  | bootstrap (resolved : Option UDPAddr)

/-- The interactions of an activity, when the rest of the system behaves like `O`. -/
def Activity.trace (K : KEnv) (O : Oracle) : Activity → Option (List Event)
  | .packet pkt => (dhtPacket K O pkt).map PacketRun.trace
  | .bootstrap a =>
    match BootStrap K O a { resp := none, trace := [] } with
    | .ok _ s => some s.trace
    | .panic _ s => some s.trace
    | .diverge => none

/-- Interactions of goroutine `i` in a history. -/
def projection (i : Nat) (H : List (Nat × Event)) : List Event :=
  (H.filter (fun x => x.1 == i)).map Prod.snd

/-- A possible history of the crawler, starting with the objects `w0` and ending with `w`: the interactions of any
number of goroutines in any interleaving, each answered by the shared objects, where every goroutine is
somewhere within one activity. -/
structure History (K : KEnv) (w0 w : World) (H : List (Nat × Event)) : Prop where
  answers : w0.replay K.env (H.map Prod.snd) = some w
  goroutines : ∀ i, ∃ (a : Activity) (O : Oracle) (tr : List Event),
    O.Fair ∧ a.trace K O = some tr ∧ projection i H <+: tr

end P2P
