import Verif.Props.SystemNetAlone
import Verif.Props.SystemNetSparedNV
import Verif.Props.PeerwirePiecesNV
/-! # C116: a concrete case – a torrent of two pieces, one worker -/
namespace P2P

def exSysNetTwoMeta : Bytes := b!"aaaabb"
def exSysNetTwoPkts (p : Nat) : RecvPacket := { addr := peerAddr, bytes := if p = 0 then exSysNetAnnounce exSysNetTwoMeta else b!"garbage" }
/-- two pieces are announced; they are short, to be computed with -/
def exSysNetTwoBodies : List Bytes := [exExt 16385, exHead 0 16385 ++ b!"aaaa", exHead 1 16385 ++ b!"bb"]

/-- an announce of this torrent, then garbage; one worker for downloads; the peer sends these messages -/
def exSysNetOf (bodies : List Bytes) : SysEnv :=
  { exSysNet with W2 := 1, pkts := exSysNetTwoPkts, conn := fun _ _ => calmEnv (exHandshake :: bodies.flatMap wire), fuel := 5 }

/-- it sends both pieces -/
def exSysNetTwo : SysEnv := exSysNetOf exSysNetTwoBodies

section
variable {B : List Bytes}

theorem exSysNetOf_announce : IsAnnounce ((exSysNetOf B).pkts 0) (exSysNetJob exSysNetTwoMeta) := by
  refine ⟨exSysNetDict exSysNetTwoMeta, b!"zz", exSysNetArgs exSysNetTwoMeta, ⟨⟨(exSysNetAnnounce exSysNetTwoMeta).length, ?_⟩, by decide +kernel, by decide +kernel, by decide +kernel⟩,
     ⟨by simp [methods], exSysNetArgs exSysNetTwoMeta, rfl, ⟨_, rfl, rfl⟩, fun _ => ⟨_, rfl⟩, fun _ => ⟨_, rfl⟩⟩, rfl, rfl⟩
  show DecodeDictNoLimit (exSysNetAnnounce exSysNetTwoMeta) = _
  decide +kernel

theorem exSysNetOf_garbage {p : Nat} (hp : p ≠ 0) (job : Job) : ¬ IsAnnounce ((exSysNetOf B).pkts p) job := by
  rintro ⟨d, t, a, ⟨⟨n, hn⟩, -⟩, -⟩
  have : (match DecodeDictNoLimit b!"garbage" with | .ok _ => true | _ => false) = false := by decide +kernel
  simp only [exSysNetOf, exSysNetTwoPkts, if_neg hp] at hn
  rw [hn] at this
  cases this

theorem exSysNetOf_job {s : SysNetSt} {port : Int} {fs0 : Bytes → Option Bytes} (h : SysNetReach (exSysNetOf B) port fs0 s) {p : Nat} {job : Job} {l : List Job}
    (he : enqueued (logOf p s.sys.pl.log) = job :: l) : p = 0 ∧ job = exSysNetJob exSysNetTwoMeta := by
  obtain ⟨conn, mem, pool, hr⟩ := net_sys h
  obtain ⟨O, hO, hc⟩ := sys_crawler hr
  have hlog : logOf p s.sys.pl.log = _ := (pl_inv (C92_refines hc).1).log p
  have hm : job ∈ enqueued (crawlTraces (exSysNetOf B).K O (exSysNetOf B).pkts p) := by
    have : job ∈ enqueued (logOf p s.sys.pl.log) := by rw [he]; simp
    rw [hlog] at this
    obtain ⟨e, h1, h2⟩ := List.mem_filterMap.1 this
    exact List.mem_filterMap.2 ⟨e, (List.take_subset _ _ h1), h2⟩
  rcases crawlTraces_spec (exSysNetOf B).K hO (exSysNetOf B).pkts p with ⟨job', b, f, hj, e⟩ | ⟨-, e⟩
  · rw [e] at hm
    have : job = job' := by simpa [enqueued] using hm
    subst this
    by_cases hp : p = 0
    · subst hp; exact ⟨rfl, hj.unique exSysNetOf_announce⟩
    · exact absurd hj (exSysNetOf_garbage hp _)
  · rw [e] at hm; cases hm

/-- its download -/
def exSysNetOfTask (B : List Bytes) : Task := (exSysNetOf B).task 0 (sha1Sum exSysNetTwoMeta) b!"10.0.0.1:6881"

theorem exSysNetOf_args : fetchArgs (exSysNetOf B).K.env (exSysNetJob exSysNetTwoMeta) = .ok (sha1Sum exSysNetTwoMeta, b!"10.0.0.1:6881") := by
  show fetchArgs exK.env _ = _
  decide +kernel

theorem exSysNetOf_fed (hl : ∀ b ∈ B, b.length < 2 ^ 32) (hB : B.length ≤ 4) : Fed (exSysNetOfTask B) exHandshake B where
  dial := rfl
  writes := fun _ => rfl
  time := fun _ => rfl
  memory := fun _ _ => rfl
  order := fun _ _ h => ⟨h, .refl _⟩
  peer := by show LocalPeerId.length = 20; decide
  info := by show (sha1Sum exSysNetTwoMeta).length = 20; decide +kernel
  handshake := exHandshake_ok
  delivers := calmEnv_delivers _
  lengths := hl
  rounds := by show B.length + 1 ≤ 5; omega

/-- the download of an execution that has led to something has come to its end -/
theorem exSysNetOf_done {s : SysNetSt} {port : Int} {fs0 : Bytes → Option Bytes} (h : SysNetReach (exSysNetOf B) port fs0 s) {p : Nat} {out : HandlerOut}
    (ho : s.outcome (exSysNetOf B) p = some out) : p = 0 ∧ s.sys.task (exSysNetOf B) 0 = some (exSysNetOfTask B) ∧ ∃ o, s.dl 0 = .running (.done o) := by
  obtain ⟨job, l, he⟩ := outcome_job ho
  obtain ⟨rfl, rfl⟩ := exSysNetOf_job h he
  have htask : s.sys.task (exSysNetOf B) 0 = some (exSysNetOfTask B) := by unfold SysSt.task; rw [he]; simp only [exSysNetOf_args]; rfl
  unfold SysNetSt.outcome at ho
  rw [he] at ho
  simp only [exSysNetOf_args] at ho
  rw [if_neg (show ¬ ((exSysNetOf B).conn 0 b!"10.0.0.1:6881").dialFails = true by rw [show ((exSysNetOf B).conn 0 b!"10.0.0.1:6881").dialFails = false from rfl]; simp)] at ho
  split at ho
  · rename_i o hd
    exact ⟨rfl, htask, o, hd⟩
  · cases ho

/-- in a fair execution of this process, in which five datagrams are read, the download comes to its end -/
theorem exSysNetOf_fair (hends : (exSysNetOf B).NetEnds 21000 fun _ => none) : ∃ e : Nat → SysNetSt, FairNet (exSysNetOf B) 21000 (fun _ => none) e ∧
    ∃ j out, ∀ m, j ≤ m → (e m).outcome (exSysNetOf B) 0 = some out := by
  obtain ⟨e, N, F, hN, hno⟩ := C114_fair_runs (S := exSysNetOf B) (port := 21000) (fs0 := fun _ => none) (by show 1 ≤ 2; decide) (by show 1 ≤ 1; decide) realH_history.1
    (by simp [exSysNetOf, exSysNet]) rfl hends 5
  obtain ⟨j, out, -, hout, -⟩ := C114_downloaded (by show 1 ≤ 2; decide) F (i := N) (p := 0) (by omega) exSysNetOf_announce
  exact ⟨e, F, j, out, hout⟩

end

def exSysNetTwoTask : Task := exSysNetOfTask exSysNetTwoBodies

theorem exSysNetTwo_fed : Fed exSysNetTwoTask exHandshake exSysNetTwoBodies := exSysNetOf_fed (by decide +kernel) (by decide)

/-- what the peer has sent -/
def exSysNetTwoGot : Received := { size := 16385, pieces := [some (1, b!"aaaa"), some (2, b!"bb")] }

theorem exSysNetTwo_verdict : verdict 0 0 .start exSysNetTwoBodies = .complete 3 3 exSysNetTwoGot := by decide +kernel

/-- … has the announced hash … -/
theorem exSysNetTwo_right : sha1Sum exSysNetTwoGot.content = exSysNetTwoTask.infoHash := by decide +kernel

/-- … but this is what is checked. -/
theorem exSysNetTwo_wrong : exSysNetTwoGot.merged 1 (nonEmpty (exSysNetTwoBodies.take 3)) = b!"bbaabb" ∧ sha1Sum b!"bbaabb" ≠ exSysNetTwoTask.infoHash := by decide +kernel

/-- In no execution anything is stored. -/
theorem exSysNetTwo_nothing {s : SysNetSt} {port : Int} {fs0 : Bytes → Option Bytes} (h : SysNetReach exSysNetTwo port fs0 s) {p : Nat} {out : HandlerOut}
    (ho : s.outcome exSysNetTwo p = some out) : p = 0 ∧ out = .nothing ∧ s.sys.task exSysNetTwo 0 = some exSysNetTwoTask ∧ ∃ o, s.dl 0 = .running (.done o) := by
  obtain ⟨rfl, htask, o, hd⟩ := exSysNetOf_done h ho
  have h2 := C116_one_worker rfl h htask hd exSysNetTwo_fed 3 3 _ exSysNetTwo_verdict (by show 16385 ≤ 2 ^ 48; decide)
  have h2 : s.outcome exSysNetTwo 0 = some (if sha1Sum (exSysNetTwoGot.merged 1 (nonEmpty (exSysNetTwoBodies.take 3))) = exSysNetTwoTask.infoHash then _ else _) := h2
  rw [exSysNetTwo_wrong.1, if_neg exSysNetTwo_wrong.2, ho] at h2
  exact ⟨rfl, Option.some.inj h2, htask, o, hd⟩

/-- Non-vacuity of `C116_one_worker`: a fair execution of the whole program with one worker, in which the announce of a torrent of two pieces is read and its honest peer reached; the
download comes to its end, with all pieces, and is never stored. -/
theorem C116_example : ∃ e : Nat → SysNetSt, FairNet exSysNetTwo 21000 (fun _ => none) e ∧ sha1Sum exSysNetTwoGot.content = exSysNetTwoTask.infoHash ∧
    ∃ j, ∀ m, j ≤ m → (e m).sys.task exSysNetTwo 0 = some exSysNetTwoTask ∧ (∃ o, (e m).dl 0 = .running (.done o)) ∧ (e m).outcome exSysNetTwo 0 = some .nothing := by
  obtain ⟨e, F, j, out, hout⟩ := exSysNetOf_fair (B := exSysNetTwoBodies) fun s h p out ho => by obtain ⟨-, rfl, -⟩ := exSysNetTwo_nothing h ho; trivial
  refine ⟨e, F, exSysNetTwo_right, j, fun m hm => ?_⟩
  obtain ⟨-, rfl, h1, h2⟩ := exSysNetTwo_nothing (F.reach m) (hout m hm)
  exact ⟨h1, h2, hout m hm⟩

/-- Non-vacuity of `C116_no_file`: there is no file in any execution – also when the download is over, as in `C116_example`. -/
theorem exSysNetTwo_no_file {s : SysNetSt} {port : Int} {fs0 : Bytes → Option Bytes} (h : SysNetReach exSysNetTwo port fs0 s) :
    s.sys.fs.fs (b!"torrent/" ++ hexEncode (sha1Sum exSysNetTwoMeta) ++ b!".torrent") = fs0 (b!"torrent/" ++ hexEncode (sha1Sum exSysNetTwoMeta) ++ b!".torrent") := by
  refine C116_no_file rfl h (fun p q hash d d' a b => ?_) _ fun p t ht _ => ?_
  · obtain ⟨-, a, -⟩ := exSysNetTwo_nothing h a
    cases a
  · have ht' := ht
    unfold SysSt.task at ht
    cases he : enqueued (logOf p s.sys.pl.log) with
    | nil => rw [he] at ht; cases ht
    | cons job l =>
      obtain ⟨rfl, rfl⟩ := exSysNetOf_job h he
      rw [he] at ht
      simp only [show fetchArgs exSysNetTwo.K.env (exSysNetJob exSysNetTwoMeta) = .ok (sha1Sum exSysNetTwoMeta, b!"10.0.0.1:6881") from exSysNetOf_args] at ht
      have : exSysNetTwoTask = t := Option.some.inj ht
      subst this
      exact ⟨_, _, 3, 3, _, exSysNetTwo_fed, exSysNetTwo_verdict, by show 16385 ≤ 2 ^ 48; decide, by rw [exSysNetTwo_wrong.1]; exact exSysNetTwo_wrong.2⟩

/-! ## Three pieces of full size -/

theorem exWire3_fed (c : UInt8) : Fed (exSysNetOfTask (exWire3 c)) exHandshake (exWire3 c) :=
  exSysNetOf_fed (exWire3_stream c (sha1Sum exSysNetTwoMeta) (by decide +kernel)).lengths (Nat.le_of_eq rfl)

theorem exMsgs3 (c : UInt8) (i : Nat) (hd p : Bytes) (h1 : exHeads3[i]? = some hd) (h2 : (exPs c)[i]? = some p) : meaning (hd ++ p) = .piece i p := by
  have hl : ∀ (n : Nat) (x : UInt8), 1 ≤ n → List.replicate n x ≠ [] := by
    intro n x hn h
    have := congrArg List.length h
    rw [List.length_replicate] at this
    simp at this
    omega
  match i with
  | 0 =>
    simp only [exHeads3, exPs, List.getElem?_cons_zero, Option.some.injEq] at h1 h2
    subst h1; subst h2
    exact exMsg3 0 (.inl rfl) _ (hl _ _ (by omega)) (by rw [List.length_replicate]; omega)
  | 1 =>
    simp only [exHeads3, exPs, List.getElem?_cons_zero, List.getElem?_cons_succ, Option.some.injEq] at h1 h2
    subst h1; subst h2
    exact exMsg3 1 (.inr (.inl rfl)) _ (hl _ _ (by omega)) (by rw [List.length_replicate]; omega)
  | 2 =>
    simp only [exHeads3, exPs, List.getElem?_cons_zero, List.getElem?_cons_succ, Option.some.injEq] at h1 h2
    subst h1; subst h2
    exact exMsg3 2 (.inr (.inr rfl)) _ (hl _ _ (by omega)) (by rw [List.length_replicate]; omega)
  | i + 3 => cases h1

theorem exWire3_outcome {s : SysNetSt} {port : Int} {fs0 : Bytes → Option Bytes} (h : SysNetReach (exSysNetOf (exWire3 98)) port fs0 s)
    (ht : s.sys.task (exSysNetOf (exWire3 98)) 0 = some (exSysNetOfTask (exWire3 98))) {o : POut (Option Bytes × Option Bytes)} (hd : s.dl 0 = .running (.done o)) :
    s.outcome (exSysNetOf (exWire3 98)) 0 = some .nothing ∨ ∃ bad, bad ≠ (exPs 98).flatten ∧ sha1Sum bad = sha1Sum exSysNetTwoMeta := by
  refine C116_not_stored rfl h ht hd (hs := exHandshake) (ext := exExt 32778) (heads := exHeads3) (ps := exPs 98) (len := 47) (exWire3_fed 98) (exPs_pieces 98)
    (by rw [exPs_len]; decide) (by rw [exPs_len]; exact exExt3) ⟨rfl, by decide +kernel⟩ (exMsgs3 98) (i := 1) (p := List.replicate 16384 99) (p' := List.replicate 10 98) rfl rfl ?_
  rintro ⟨r, hr⟩
  have := congrArg (fun l : Bytes => l[0]?) hr
  obtain ⟨r1, e1⟩ : ∃ r, List.replicate 16384 (99 : UInt8) = 99 :: r := ⟨_, List.replicate_succ (n := 16383)⟩
  obtain ⟨r2, e2⟩ : ∃ r, List.replicate 10 (98 : UInt8) = 98 :: r := ⟨_, List.replicate_succ (n := 9)⟩
  rw [e1, e2] at this
  simp at this

/-- Non-vacuity of `C116_honest` and `C116_not_stored`: their hypotheses hold in a fair execution in which three pieces of full size are downloaded with one worker. -/
theorem C116_honest_example : ∃ e : Nat → SysNetSt, FairNet (exSysNetOf (exWire3 98)) 21000 (fun _ => none) e ∧ IsPieces (exPs 98) ∧ (exPs 98).length = 3 ∧
    Fed (exSysNetOfTask (exWire3 98)) exHandshake (exWire3 98) ∧
    ∃ j o, (e j).sys.task (exSysNetOf (exWire3 98)) 0 = some (exSysNetOfTask (exWire3 98)) ∧ (e j).dl 0 = .running (.done o) ∧
      ((e j).outcome (exSysNetOf (exWire3 98)) 0 = some .nothing ∨ ∃ bad, bad ≠ (exPs 98).flatten ∧ sha1Sum bad = sha1Sum exSysNetTwoMeta) := by
  have aux : ∀ {out : HandlerOut} {c : Prop} [Decidable c] {a b : Bytes}, out = (if c then HandlerOut.flush a b else .nothing) → out.Ends := by
    intro out c _ a b h
    subst h
    split <;> trivial
  obtain ⟨e, F, j, out, hout⟩ := exSysNetOf_fair (B := exWire3 98) fun s h p out ho => by
    obtain ⟨rfl, ht, o, hd⟩ := exSysNetOf_done h ho
    have := C116_honest rfl h ht hd (hs := exHandshake) (ext := exExt 32778) (heads := exHeads3) (init := [List.replicate 16384 97]) (a := List.replicate 16384 99)
      (w := List.replicate 10 98) (len := 47) (exWire3_fed 98) (exPs_pieces 98) (by rw [show [List.replicate 16384 97] ++ [List.replicate 16384 99, List.replicate 10 98] = exPs 98 from rfl, exPs_len]; decide)
      (by rw [show [List.replicate 16384 97] ++ [List.replicate 16384 99, List.replicate 10 98] = exPs 98 from rfl, exPs_len]; exact exExt3) ⟨rfl, by decide +kernel⟩ (exMsgs3 98)
    exact aux (Option.some.inj (ho.symm.trans this))
  obtain ⟨-, ht, o, hd⟩ := exSysNetOf_done (F.reach j) (hout j (Nat.le_refl j))
  exact ⟨e, F, exPs_pieces 98, rfl, exWire3_fed 98, j, o, ht, hd, exWire3_outcome (F.reach j) ht hd⟩

end P2P
