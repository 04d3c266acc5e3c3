import Verif.Model.Peerwire
/-! # Specification of the conversation of one download (C74)

An automaton over the observable interactions: what is written to the peer, byte for byte, in which order, and when the
connection is read. Independent of dht/peerwire/bep9.go. -/
namespace P2P

/-- BEP 3: the handshake -/
def helloMsg (peerId infoHash : Bytes) : Bytes :=
  [19] ++ b!"BitTorrent protocol" ++ [0, 0, 0, 0, 0, 16, 0, 0] ++ infoHash ++ peerId

/-- BEP 10: the extended handshake, metadata messages are to be sent under the number 1 -/
def extendedHelloMsg : Bytes := [0, 0, 0, 26] ++ [20, 0] ++ b!"d1:md11:ut_metadatai1eee"

/-- a message with its length in front -/
def framedMsg (body : Bytes) : Bytes := be32 body.length ++ body

/-- BEP 9: a request for piece `i`, the two keys in any order -/
def IsPieceRequest (i : Nat) (w : Bytes) : Prop :=
  w = framedMsg ([20, 1] ++ b!"d8:msg_typei0e5:piecei" ++ natDec i ++ b!"ee") ∨
  w = framedMsg ([20, 1] ++ b!"d5:piecei" ++ natDec i ++ b!"e8:msg_typei0ee")

/-- what was read of the answer to the handshake, filled up with zeros -/
def filled (d : Bytes) : Bytes := d ++ List.replicate (68 - d.length) 0

/-- a protocol name of at most 19 bytes that is "BitTorrent protocol" up to case, and the bit for extended messages in the sixth
reserved byte -/
def GoodHello (fold : FoldTable) (x : Bytes) : Prop :=
  ∃ c b, x[0]? = some c ∧ c.toNat ≤ 19 ∧ equalFold fold b!"BitTorrent protocol" ((x.drop 1).take c.toNat) = true ∧
    x[6 + c.toNat]? = some b ∧ b.toNat.testBit 4 = true

/-- where a download stands -/
inductive Phase where
  /-- connected, nothing written -/
  | start
  /-- handshake written, none received -/
  | helloSent
  /-- handshake received, nothing written since -/
  | helloGot
  /-- between two messages -/
  | idle
  /-- the clock has just been asked and there is time left -/
  | clock
  /-- a length prefix was read -/
  | prefixGot
  /-- a message was read -/
  | msgGot
  /-- a message announced `n` pieces, `i` of them have been requested -/
  | asking (i n : Nat)
  /-- nothing will be read or written any more -/
  | over
  | closed
deriving DecidableEq

/-- The next interaction and the phase after it. -/
inductive Phase.Step (fold : FoldTable) (peerId infoHash : Bytes) : Phase → PEvent → Phase → Prop
  | hello : Step fold peerId infoHash .start (.write (helloMsg peerId infoHash) false) .helloSent
  | helloFails : Step fold peerId infoHash .start (.write (helloMsg peerId infoHash) true) .over
  | answered (d : Bytes) (h : GoodHello fold (filled d)) : Step fold peerId infoHash .helloSent (.read 68 d false) .helloGot
  | badAnswer (d : Bytes) (h : ¬ GoodHello fold (filled d)) : Step fold peerId infoHash .helloSent (.read 68 d false) .over
  | notAnswered (d : Bytes) : Step fold peerId infoHash .helloSent (.read 68 d true) .over
  | extended : Step fold peerId infoHash .helloGot (.write extendedHelloMsg false) .idle
  | extendedFails : Step fold peerId infoHash .helloGot (.write extendedHelloMsg true) .over
  | timeLeft : Step fold peerId infoHash .idle (.expired false) .clock
  | timeOver : Step fold peerId infoHash .idle (.expired true) .over
  | readPrefix (n : Nat) (d : Bytes) : Step fold peerId infoHash .clock (.read n d false) .prefixGot
  | noPrefix (n : Nat) (d : Bytes) : Step fold peerId infoHash .clock (.read n d true) .over
  | readBody (n : Nat) (d : Bytes) : Step fold peerId infoHash .prefixGot (.read n d false) .msgGot
  | noBody (n : Nat) (d : Bytes) : Step fold peerId infoHash .prefixGot (.read n d true) .over
  | announced (z : Int) (h : 0 ≤ z) : Step fold peerId infoHash .msgGot (.announced z) (.asking 0 ((z + 16383) / 16384).toNat)
  /-- a negative size above -16384 counts as no pieces -/
  | announcedNone (z : Int) (h : -16384 < z ∧ z < 0) : Step fold peerId infoHash .msgGot (.announced z) (.asking 0 0)
  | request (i n : Nat) (w : Bytes) (h : i < n) (hw : IsPieceRequest i w) :
      Step fold peerId infoHash (.asking i n) (.write w false) (.asking (i + 1) n)
  | requestFails (i n : Nat) (w : Bytes) (h : i < n) (hw : IsPieceRequest i w) : Step fold peerId infoHash (.asking i n) (.write w true) .over
  | piece (i : Nat) : Step fold peerId infoHash .msgGot (.gotPiece i) .idle
  | alloc (n : Nat) : Step fold peerId infoHash .msgGot (.alloc n) .msgGot
  /-- memory for the result -/
  | result (n : Nat) : Step fold peerId infoHash .over (.alloc n) .over
  | close : Step fold peerId infoHash .over .close .closed
  /-- buffers are fetched and returned -/
  | get (p : Phase) (b : Slice) (h : p = .clock ∨ p = .prefixGot) : Step fold peerId infoHash p (.get b) p
  | put (p : Phase) (b : Slice) (h : p = .prefixGot ∨ p = .idle ∨ p = .over) : Step fold peerId infoHash p (.put b) p
  /-- the bytes that were received are looked at -/
  | load (p : Phase) (h : p = .prefixGot ∨ p = .msgGot ∨ p = .over) : Step fold peerId infoHash p .load p

/-- Changes without an interaction. Requests that are outstanding cannot be skipped. -/
inductive Phase.Skip (peerId infoHash : Bytes) : Phase → Phase → Prop
  /-- ids of a wrong length are not sent -/
  | badIds (h : peerId.length ≠ 20 ∨ infoHash.length ≠ 20) : Skip peerId infoHash .start .over
  /-- a keep-alive -/
  | keepAlive : Skip peerId infoHash .prefixGot .idle
  /-- a message without effect -/
  | ignored : Skip peerId infoHash .msgGot .idle
  | asked (n : Nat) : Skip peerId infoHash (.asking n n) .idle
  /-- the download gives up, or has all pieces -/
  | stop (p : Phase) (h : p = .idle ∨ p = .clock ∨ p = .prefixGot ∨ p = .msgGot) : Skip peerId infoHash p .over

/-- the interactions `tr` lead from the start to the phase -/
inductive Conversation (fold : FoldTable) (peerId infoHash : Bytes) : List PEvent → Phase → Prop
  | start : Conversation fold peerId infoHash [] .start
  | step {tr : List PEvent} {p q : Phase} {e : PEvent} : Conversation fold peerId infoHash tr p → Phase.Step fold peerId infoHash p e q →
      Conversation fold peerId infoHash (tr ++ [e]) q
  | skip {tr : List PEvent} {p q : Phase} : Conversation fold peerId infoHash tr p → Phase.Skip peerId infoHash p q →
      Conversation fold peerId infoHash tr q

end P2P
