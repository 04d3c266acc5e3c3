import Verif.Props.InterleaveUse
/-! # Metadata of one piece, if its buffer is left alone (C110, C111)

With one piece a download takes no buffer again between receiving it and using it; so it is enough that the others leave the buffer alone. -/
namespace P2P

/-- C110: metadata of one piece: **if the others leave the buffers alone in which this download received pieces**, what is checked – and returned, if its hash is right – is exactly
what the peer sent. -/
theorem C110_one_piece_spared {E : PEnv} {peerId infoHash : Bytes} {mem : Nat → Bytes} {pool : BPool} {hs : Bytes} {bodies : List Bytes} {fuel : Nat}
    (S : StreamAmong E peerId infoHash mem pool hs bodies fuel) (hA : LeaveAlone E) (sha1 : Bytes → Bytes) (fold : FoldTable) (n k j : Nat) (size : Int) (d : Bytes)
    (hv : verdict 0 0 .start bodies = .complete n k { size, pieces := [some (j, d)] }) (hsz : size ≤ 2 ^ 48) :
    ∃ s, FetchMetaData E sha1 fold fuel peerId infoHash mem pool =
        (if sha1 d = infoHash then .returned (some d) none s else .returned none (some b!"check sum err") s) ∧
      reads s.trace = 1 + ((bodies.take n).flatMap wire).length := by
  have hj : j + 1 = k := by
    rcases verdict_last (by decide) hv with h | ⟨i, j', d', h1, h2⟩
    · simp at h
    · match i with
      | 0 => simp at h1; omega
      | i + 1 => simp at h1
  have hK : LoopInv E (fun s _ => SliceAt none s) := by
    refine ⟨fun s g h => at_emit none ⟨by simp, by simp⟩ s h, fun s t g g' _ hrun _ h => ?_⟩
    have h2 := at_handler (E := E) s h
    rw [hrun] at h2
    exact h2
  obtain ⟨data, s, ⟨-, -, h1⟩, h2, h3⟩ := S.ends sha1 fold n k _ hv hsz hK
    (fun s _ hno => ⟨fun i sl h => absurd h (hno i sl), fun _ h => nomatch h⟩) (fun data _ => data = d) fun t m hT hS hall => by
    have hAl : Along t { t with trace := t.trace ++ [.alloc m] } := .still hT.fine rfl rfl (by simp only [heldP_snoc]) (by simp only [reads_snoc, Nat.add_zero])
    by_cases hd : d = []
    · subst hd
      have := hT.none 0 j rfl
      refine ⟨[], { t with trace := t.trace ++ [.alloc m] }, ?_, hAl.reads, rfl⟩
      show mergeLoop E 1 0 [] _ = _
      unfold mergeLoop
      simp only [PM.bind_apply, PM.get_apply, this]
      rfl
    · obtain ⟨sl, tr, b, c1, c2, c3, c4⟩ := hT.last hall 0 j d rfl hj hd
      obtain ⟨u, g1, A1, V1, -, m1⟩ := others_am S.among hAl.fine
      refine ⟨d, { u with trace := u.trace ++ [.load] }, ?_, by simp only [reads_snoc, Nat.add_zero]; exact A1.reads.trans hAl.reads, rfl⟩
      show mergeLoop E 1 0 [] _ = _
      unfold mergeLoop
      simp only [PM.bind_apply, PM.get_apply, c1, loadSlice, g1, emitP, PM.modify_apply, PM.pure_apply]
      have : readSlice u.mem sl = d := by
        rw [← c4]
        unfold readSlice
        rw [m1, hA _ _ sl.arr (pieceBuffers_snoc _ _ _ (hS.1 0 sl c1))]
      rw [this]
      rfl
  subst h1
  exact ⟨s, h2, h3⟩

/-- C111: the same in every schedule in which the others leave alone the buffers with pieces of download `i`. -/
theorem C111_one_piece_spared {tasks : List Task} {i : Nat} {t : Task} {o : POut (Option Bytes × Option Bytes)} (ht : tasks[i]? = some t) {x : Shared} (hx : Own [] x) {n : Net}
    (hn : Reach (· = Net.fresh x tasks) (TurnStepIf (Spared i) tasks) n) (hi : n.threads[i]? = some (.running (.done o)))
    {hs : Bytes} {bodies : List Bytes} (hf : Fed t hs bodies) (m k j : Nat) (size : Int) (d : Bytes)
    (hv : verdict 0 0 .start bodies = .complete m k { size, pieces := [some (j, d)] }) (hsz : size ≤ 2 ^ 48) :
    ∃ s, FetchOut.of o = (if t.sha1 d = t.infoHash then .returned (some d) none s else .returned none (some b!"check sum err") s) := by
  obtain ⟨f, mem, pool, h1, h2, h3, h4⟩ := C111_any_interleaving _ tasks x hx n hn i t ht o hi
  have hA : LeaveAlone (t.E.among f) := by
    intro tr y a ha
    show (f tr y).1 a = y.1 a
    rcases h3 tr y with h | ⟨s, rfl, rfl, hR⟩
    · rw [h]
    · exact hR rfl a ha
  obtain ⟨s, g1, -⟩ := C110_one_piece_spared (hf.stream h1 h2) hA t.sha1 t.fold m k j size d hv hsz
  exact ⟨s, by rw [← h4]; exact g1⟩

end P2P
