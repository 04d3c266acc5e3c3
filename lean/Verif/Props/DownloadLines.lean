import Verif.Props.DownloadFile
/-! # C97, continued: lines, and concrete downloads -/
namespace P2P

/-- the texts of the system contain no line feed -/
structure PlainDl (C : DlEnv) : Prop where
  ioErr : ∀ tr, lineFeeds (C.ioErr tr) = 0
  runtimeErr : ∀ tr, lineFeeds (C.runtimeErr tr) = 0
  codecErr : ∀ m, lineFeeds (C.codecErr m) = 0
  json : ∀ v, lineFeeds (C.json v) = 0

theorem dlFixed_feeds : (∀ m ∈ dlTexts, lineFeeds m = 0) ∧ (∀ k ∈ dlKeys, lineFeeds k = 0) ∧ (∀ m ∈ dlComplaints, lineFeeds m = 0) ∧
    (∀ m ∈ jobComplaints, lineFeeds m = 0) := by decide +kernel

theorem lineFeeds_append (a b : Bytes) : lineFeeds (a ++ b) = lineFeeds a + lineFeeds b := List.count_append ..

theorem dlSource_feeds {C : DlEnv} {laddr : Bytes} (hp : PlainDl C) (hl : lineFeeds laddr = 0) {v : LogVal} (h : DlSource C laddr v) :
    lineFeeds (ToString v) = 0 := by
  cases h with
  | laddr => exact hl
  | num n => exact itoa_feeds n
  | io tr => exact hp.ioErr tr
  | codec m => exact hp.codecErr m
  | tooLarge => decide
  | braces => rfl
  | extended d =>
    show lineFeeds (b!"{\"ExDict\":" ++ C.json (.dict d) ++ b!"}") = 0
    rw [lineFeeds_append, lineFeeds_append, hp.json]; decide
  | head a b c d =>
    show lineFeeds (b!"{\"MsgId\":" ++ itoa a ++ b!",\"ExMsgType\":" ++ itoa b ++ b!",\"ExPieceNum\":" ++ itoa c ++ b!",\"ExTotalSize\":" ++ itoa d ++ b!"}") = 0
    simp only [lineFeeds_append, itoa_feeds]; decide

theorem printed_eq3 {r : LogRec} (h : r.method = .Info ∨ r.method = .Error ∨ r.method = .Panic) (time : Bytes) (ctx : Option (List (Bytes × LogVal))) :
    r.printed time ctx = (ConsoleLogger.mk r.pfx .info).record time r.method.levelName r.msg ctx := by
  unfold LogRec.printed
  rcases h with h | h | h <;> simp [h, ConsoleLogger.call, LogLevel.num]

theorem levelName_feeds (k : LogMethod) : lineFeeds k.levelName = 0 := by cases k <;> decide

theorem feeds_sum {es : List (Bytes × LogVal)} (h : ∀ e ∈ es, lineFeeds e.1 = 0 ∧ lineFeeds (ToString e.2) = 0) : ctxFeeds (some es) = 0 := by
  simp only [ctxFeeds]
  induction es with
  | nil => rfl
  | cons e r ih =>
    have h1 := h e (List.mem_cons_self ..)
    simp only [List.map_cons, List.sum_cons, h1.1, h1.2, ih fun e' he' => h e' (List.mem_cons_of_mem _ he')]

/-- the number of lines of a record -/
theorem record_feeds {x : LogRec} {es : List (Bytes × LogVal)} {time : Bytes} (hk : x.method = .Info ∨ x.method = .Error ∨ x.method = .Panic)
    (ht : lineFeeds time = 0) (hp : lineFeeds x.pfx = 0) (hm : lineFeeds x.msg = 0) {es' : List (Bytes × LogVal)} (h : es.Perm es') :
    lineFeeds (x.printed time (some es')) = 1 + ctxFeeds (some es) := by
  rw [printed_eq3 hk, (C66_lines _ _ _ _ _).2, ht, levelName_feeds, hp, hm, ← ctxFeeds_perm h]

/-- **C97: one line per record**: if the texts of the system contain no line feed, a peer cannot make a download write more lines than records, whatever
bytes it sends – except for the last record of a download broken off by a missing field, which contains a stack. -/
theorem C97_lines {E : PEnv} {C : DlEnv} {laddr : Bytes} (ho : ∀ tr, OrderOK (E.order tr)) (hp : PlainDl C) (hl : lineFeeds laddr = 0) {sha1 : Bytes → Bytes}
    {fold : FoldTable} {fuel : Nat} {peerId infoHash : Bytes} {mem : Nat → Bytes} {pool : BPool} {o : FetchOut} {l : List LogRec}
    (h : FetchMetaDataL E C laddr sha1 fold fuel peerId infoHash mem pool = (o, l)) {time : Bytes} (ht : lineFeeds time = 0) :
    ∀ x ∈ l, ∃ es, x.ctx = some es ∧
      ((∀ es', es.Perm es' → lineFeeds (x.printed time (some es')) = 1) ∨
       ∃ m tr, m ∈ dlComplaints ∧ l.getLast? = some x ∧ x = brokenRec laddr (lerr (bizText m (C.stack tr))) ∧
         ∀ es', es.Perm es' → lineFeeds (x.printed time (some es')) = 3 + lineFeeds (C.stack tr)) := by
  have hv := (C97_verdict E C laddr ho sha1 fold fuel peerId infoHash mem pool).2
  rw [h] at hv
  dsimp only at hv
  have step : ∀ {x : LogRec}, DlRecord C laddr x → ∃ es, x.ctx = some es ∧ ∀ es', es.Perm es' → lineFeeds (x.printed time (some es')) = 1 := by
    intro x hx
    obtain ⟨es, h1, h2⟩ := hx.ctx
    refine ⟨es, h1, fun es' he => ?_⟩
    rw [record_feeds hx.method ht ?_ (dlFixed_feeds.1 _ hx.msg) he,
      feeds_sum fun e he => ⟨dlFixed_feeds.2.1 _ (h2 e he).1, dlSource_feeds hp hl (h2 e he).2⟩]
    rcases hx.pfx with h | h <;> rw [h] <;> decide
  have two : ∀ {k : LogMethod} {msg k1 k2 : Bytes} {v1 v2 : LogVal}, (k = .Info ∨ k = .Error ∨ k = .Panic) → lineFeeds msg = 0 → lineFeeds k1 = 0 →
      lineFeeds k2 = 0 → lineFeeds (ToString v1) = 0 → ∀ es', [(k1, v1), (k2, v2)].Perm es' →
      lineFeeds (LogRec.printed { pfx := b!"FetchMetadata", method := k, msg, ctx := some [(k1, v1), (k2, v2)] } time (some es')) = 1 + lineFeeds (ToString v2) := by
    intro k msg k1 k2 v1 v2 hk hm h1 h2 h3 es' he
    rw [record_feeds hk ht (by show lineFeeds b!"FetchMetadata" = 0; decide) hm he]
    simp only [ctxFeeds, List.map_cons, List.map_nil, List.sum_cons, List.sum_nil, h1, h2, h3]
    omega
  have hla : lineFeeds (ToString (lstr laddr)) = 0 := hl
  have prog : ∀ {l' : List LogRec} {P : LogRec → Prop} {x : LogRec}, DlProgress C laddr l' → x ∈ l' →
      ∃ es, x.ctx = some es ∧ ((∀ es', es.Perm es' → lineFeeds (x.printed time (some es')) = 1) ∨ P x) := by
    intro l' P x hp hx
    obtain ⟨es, h1, h2⟩ := step (hp x hx).1
    exact ⟨es, h1, .inl h2⟩
  intro x hx
  cases hv with
  | dial => cases hx
  | data hq =>
    rcases List.mem_append.1 hx with hx | hx
    · obtain ⟨es, h1, h2⟩ := step (hq x hx).1; exact ⟨es, h1, .inl h2⟩
    · rw [List.mem_singleton.1 hx]
      refine ⟨_, rfl, .inl fun es' he => ?_⟩
      refine (two ?_ ?_ ?_ ?_ hla es' he).trans ?_
      · decide
      · decide
      · decide
      · decide
      · rw [show lineFeeds (ToString (lstr (hexEncode infoHash))) = 0 from hexEncode_feeds infoHash]
  | mismatch hq =>
    rename_i l' s
    rcases List.mem_append.1 hx with hx | hx
    · obtain ⟨es, h1, h2⟩ := step (hq x hx).1; exact ⟨es, h1, .inl h2⟩
    · rw [List.mem_singleton.1 hx]
      refine ⟨_, rfl, .inl fun es' he => ?_⟩
      refine (two ?_ ?_ ?_ ?_ hla es' he).trans ?_
      · decide
      · decide
      · decide
      · decide
      · rw [show lineFeeds (ToString (lint (lastSize s.trace))) = 0 from itoa_feeds _]
  | incomplete hq => obtain ⟨es, h1, h2⟩ := step (hq x hx).1; exact ⟨es, h1, .inl h2⟩
  | refused hq hy hpan =>
    rename_i l' y s
    rcases List.mem_append.1 hx with hx | hx
    · obtain ⟨es, h1, h2⟩ := step (hq x hx).1; exact ⟨es, h1, .inl h2⟩
    · rcases List.mem_cons.1 hx with rfl | hx
      · obtain ⟨es, h1, h2⟩ := step hy; exact ⟨es, h1, .inl h2⟩
      · rw [List.mem_singleton.1 hx]
        refine ⟨_, rfl, .inl fun es' he => ?_⟩
        refine (two ?_ ?_ ?_ ?_ hla es' he).trans ?_
        · decide
        · decide
        · decide
        · decide
        · rw [show lineFeeds (ToString (lstr y.msg)) = 0 from dlFixed_feeds.1 _ hy.msg]
  | crashed hq hs =>
    rename_i l' tr s
    rcases List.mem_append.1 hx with hx | hx
    · obtain ⟨es, h1, h2⟩ := step (hq x hx).1; exact ⟨es, h1, .inl h2⟩
    · rw [List.mem_singleton.1 hx]
      refine ⟨_, rfl, .inl fun es' he => ?_⟩
      refine (two ?_ ?_ ?_ ?_ hla es' he).trans ?_
      · decide
      · decide
      · decide
      · decide
      · rw [show lineFeeds (ToString (lerr (C.runtimeErr tr))) = 0 from hp.runtimeErr tr]
  | field hq hs hm =>
    rename_i l' tr s m
    rcases List.mem_append.1 hx with hx | hx
    · obtain ⟨es, h1, h2⟩ := step (hq x hx).1; exact ⟨es, h1, .inl h2⟩
    · rw [List.mem_singleton.1 hx]
      refine ⟨_, rfl, .inr ⟨m, tr, hm, List.getLast?_concat, rfl, fun es' he => ?_⟩⟩
      refine (two ?_ ?_ ?_ ?_ hla es' he).trans ?_
      · decide
      · decide
      · decide
      · decide
      have hb : lineFeeds (ToString (lerr (bizText m (C.stack tr)))) = 2 + lineFeeds (C.stack tr) := by
        show lineFeeds (bizText m (C.stack tr)) = _
        simp only [bizText, lineFeeds_append, dlFixed_feeds.2.2.1 m hm]
        rw [show lineFeeds b!"\r\nstacks:\r\n" = 2 by decide, show lineFeeds b!"201: " = 0 by decide]
      rw [hb]; omega
  | fatal hq => obtain ⟨es, h1, h2⟩ := step (hq x hx).1; exact ⟨es, h1, .inl h2⟩
  | diverge hq => obtain ⟨es, h1, h2⟩ := step (hq x hx).1; exact ⟨es, h1, .inl h2⟩

/-! ## Concrete cases -/

/-- texts of a system -/
def exDl : DlEnv where
  ioErr := fun _ => b!"EOF"
  runtimeErr := fun _ => b!"runtime error"
  stack := fun _ => b!"goroutine 1\r\nmain()"
  codecErr := fun _ => b!"wrong param"
  json := fun _ => b!"{}"

theorem exDl_plain : PlainDl exDl := ⟨fun _ => rfl, fun _ => rfl, fun _ => rfl, fun _ => rfl⟩

def exFlush : FlushEnv := { createErr := fun _ => none, writeErr := fun _ => none }

/-- an honest download: its log, and its file -/
example : (FetchMetaDataL (chunkEnv exChunks) exDl b!"1.2.3.4:6881" toyHash (fun _ _ => false) 10 b!"cccccccccccccccccccc" b!"hhhhhhhhhhhhhhhhhhhh" (fun _ => [])
      exPool).2.map (fun x => x.msg) = [b!"get extended handshake", b!"request pieces", b!"fetch extended msg", b!"chesum metadata match"] := by decide +kernel
theorem exJob_written : (fetchHandlerL exEnv (fun _ => chunkEnv exChunks) exDl exFlush toyHash 10 b!"cccccccccccccccccccc" (fun _ => []) exPool
    (exFetchAnnounce [1, 2, 3, 4] [])).1 = .written b!"6868686868686868686868686868686868686868" exMeta := by decide +kernel
/-- without the directory -/
example : (fetchHandlerL exEnv (fun _ => chunkEnv exChunks) exDl { exFlush with createErr := fun _ => some b!"no such file" } toyHash 10 b!"cccccccccccccccccccc"
    (fun _ => []) exPool (exFetchAnnounce [1, 2, 3, 4] [])).2.map (fun x => x.msg) =
    [b!"get extended handshake", b!"request pieces", b!"fetch extended msg", b!"chesum metadata match", b!"create file err"] := by decide +kernel
/-- an announce with a strange port flag -/
example : (fetchHandlerL exEnv (fun _ => chunkEnv exChunks) exDl exFlush toyHash 10 b!"cccccccccccccccccccc" (fun _ => []) exPool
    (exFetchAnnounce [1, 2, 3, 4] [(b!"implied_port", .nil)])).2.map (fun x => x.msg) = [b!"fetchHandler panic"] := by decide +kernel
/-- broken off: a peer that closes after its handshake, one without a size, one whose size is a string -/
example : [exChunks.take 1, exChunks.take 1 ++ [be32 9, [20, 0] ++ b!"d1:mdee"],
      exChunks.take 1 ++ [be32 28, [20, 0] ++ b!"d1:mde13:metadata_size1:xe"]].map (fun c =>
      (FetchMetaDataL (chunkEnv c) exDl b!"1.2.3.4:6881" toyHash (fun _ _ => false) 10 b!"cccccccccccccccccccc" b!"hhhhhhhhhhhhhhhhhhhh" (fun _ => [])
        exPool).2.map (fun x => x.msg)) =
    [[b!"read prefix length err", b!"FetchMetaData err"], [b!"get extended handshake", b!"get extended handshake wrong format", b!"FetchMetaData err"],
      [b!"get extended handshake", b!"FetchMetaData err"]] := by decide +kernel

/-- the bound of `C97_count` is met: the handshake cannot be sent -/
example : (fun r : FetchOut × List LogRec => (r.2.length, reads r.1.trace)) (FetchMetaDataL { chunkEnv [] with writeFails := fun _ => true } exDl
    b!"1.2.3.4:6881" toyHash (fun _ _ => false) 10 b!"cccccccccccccccccccc" b!"hhhhhhhhhhhhhhhhhhhh" (fun _ => []) exPool) = (2, 0) := by decide +kernel

end P2P
