import Verif.Props.Zap
import Verif.Props.Startup
/-! # C63: with which text `BootStrap` panics; C68: the numeric level of each method in the file -/
namespace P2P

/-- **C63: how `BootStrap` ends.** It panics with a fixed text: one for a host that does not resolve, another one for a socket that refuses the
query; otherwise it returns. -/
theorem C63_panic_text (K : KEnv) {O : Oracle} (hO : O.Fair) :
    (∃ tr, BootStrap K O none { resp := none, trace := [] } = .panic (.str b!"bootstrap resolve host err") { resp := none, trace := tr }) ∧
    ∀ a : UDPAddr, ∃ v b, ∃ failed : Bool, BootStrap K O (some a) { resp := none, trace := [] } =
      if failed then .panic (.str b!"bootstrap findnode err")
          { resp := none, trace := [.nextTx v, .put (crawlQuery K.nodeId v), .send a b true] }
        else .ok () { resp := none, trace := [.nextTx v, .put (crawlQuery K.nodeId v), .send a b false] } := by
  simp only [BootStrap, GoM.bind_apply, nextTxId, List.nil_append]
  generalize O.nextTx [] = v
  refine ⟨⟨_, rfl⟩, ?_⟩
  intro a
  have hm : WithFindNodeMsg (txIdText v) K.nodeId K.nodeId (some genericH) = crawlQuery K.nodeId v := rfl
  simp only [hm]
  obtain ⟨b, f, err, -, hqq, he⟩ := Query_spec hO a (crawlQuery K.nodeId v)
    { resp := none, trace := [.nextTx v] }
    (args := [(b!"id", .str K.nodeId), (b!"target", .str K.nodeId)]) rfl
    ⟨by simp, by simp [GoVal.WFD, GoVal.WF]⟩ (by simp [Encodable, EncodableD])
  refine ⟨v, b, f, ?_⟩
  simp only [hqq]
  cases f with
  | true =>
    cases err with
    | none => have := he.1 rfl; cases this
    | some e => rfl
  | false =>
    cases err with
    | none => rfl
    | some e => have := he.2 rfl; cases this

/-- The level zap gives the records of a method: zap's own numbers, and 10 for `Trace`. -/
def recordLevel : LogMethod → Int
  | .Debug => -1
  | .Info => 0
  | .Warn => 1
  | .Error => 2
  | .Panic => 4
  | .Trace => 10

/-- **C68: the level of a record.** Every record written by a method carries that method's level; `Trace` is above all levels of zap (which end
with 5, `Fatal`), so that neither a threshold nor zap's side effects apply to it. -/
theorem C68_level (file name : Bytes) (ps : List Bytes) (m : LogMethod) (msg : Bytes) (ctx : Option (List (Bytes × LogVal)))
    {recs : List ZapRecord} {p : Option Bytes} (h : (prefixed file name ps).call m msg ctx = some (recs, p)) :
    ∀ r ∈ recs, r.level = recordLevel m := by
  obtain ⟨recs', p', e, h1, h2, -⟩ := C68_call file name ps m msg ctx
  rw [h] at e
  have he := (Prod.mk.inj (Option.some.inj e)).1
  subst he
  intro r hr
  by_cases hs : severity (threshold name) ≤ severity m
  · obtain ⟨r', hr', -, -, hl⟩ := h1 hs
    rw [hr', List.mem_singleton] at hr
    rw [hr, hl]
    cases m <;> rfl
  · rw [h2 (Nat.lt_of_not_le hs)] at hr
    cases hr

/-- the trace of a peer at threshold ERROR is written with level 10 -/
example : ∃ r p, (prefixed b!"x" b!"ERROR" [b!"dht"]).call .Trace b!"hi" none = some ([r], p) ∧ r.level = 10 ∧ p = none :=
  ⟨_, _, rfl, by decide, rfl⟩

end P2P
