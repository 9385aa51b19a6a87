import Verif.Props.LiveSystem

/-!
# C71 for HTTP: bodies that break off

The server answers every request as it should.  Every body breaks off before its first
byte, without an error (http/mod.rs 282-284 passes the end of the body on; a body that the end of
the connection ends looks like this).
-/

namespace SD

/-- The beginning: a read of 8 sleeps, 4 bytes arrive, the connection ends, the rest is asked for. -/
def endlessStartH : List Act :=
  [.read 8] ++ rdrs 3 ++ [.chunk 4] ++ srcs 6 ++ [.eof, .src, .seekOk 4]

/-- The stream at its start. -/
def endlessW0 : HSys memStorage := { sys := init cfg20 demoMem20, http := stream20 headers20 (some 20) }

/-- What then happens over and over. -/
def endlessActH (i : Nat) : Option HAct :=
  if i < 14 then traceAct (hstep cfg20) (fun _ _ => true) (fun _ => toHAct (server20 headers20)) endlessW0 endlessStartH i
  else if (i - 14) % 3 = 0 then some (.sys .eof)
  else if (i - 14) % 3 = 1 then some (.sys .src) else some (.seekRange (server20 headers20))

/-- The state in a round. -/
def endlessAtH (tend : Bool) (p : SrcPc) (log : List Ev) : HSys memStorage :=
  { sys := {
      st := { buf := [1, 2, 3, 4] ++ List.replicate 16 0, written := 4, rp := 0, wp := 4 }
      dl := [(0, 4)], failed := false, done := false, reached := false, writeReq := true, permit := false
      cancelled := false, req := some 8, seekQ := none, pfDone := true, pfStart := 0, rem := none, tpos := 4
      tlim := some 20, tend, spc := p, rpc := .rWait 8 8, log }
    http := { stream20 headers20 (some 20) with stream := bytes20.drop 4 } }

/-- The events of a round. -/
def endlessLogH : Nat → List Ev
  | 0 => [.seekRange 4 (some 20), .eof, .progress 4 (0, 4) (.downloading 4), .write 4 [] 0, .write 0 [1, 2, 3, 4] 4,
      .chunk [1, 2, 3, 4], .request 8]
  | k + 1 => .seekRange 4 (some 20) :: .eof :: endlessLogH k

def endlessRunH (i : Nat) : HSys memStorage :=
  if i < 14 then trace (hstep cfg20) (fun _ _ => true) (fun _ => toHAct (server20 headers20)) endlessW0 endlessStartH i
  else if (i - 14) % 3 = 0 then endlessAtH false .sel (endlessLogH ((i - 14) / 3))
  else if (i - 14) % 3 = 1 then endlessAtH true .fin (.eof :: endlessLogH ((i - 14) / 3))
  else endlessAtH true (.seeking 4 (some 20)) (.seekRange 4 (some 20) :: .eof :: endlessLogH ((i - 14) / 3))

theorem endlessH_eof (l : List Ev) :
    hstep cfg20 (endlessAtH false .sel l) (.sys .eof) = some (endlessAtH true .fin (.eof :: l)) := by
  rfl

theorem endlessH_src (l : List Ev) :
    hstep cfg20 (endlessAtH true .fin l) (.sys .src) =
      some (endlessAtH true (.seeking 4 (some 20)) (.seekRange 4 (some 20) :: l)) := by
  rfl

theorem endless_request (b : List Byte) : ({ stream20 headers20 (some 20) with stream := b } : HttpStream).seekRange
    (server20 headers20) 4 (some 20) =
      { res := .ok (), stream := { stream20 headers20 (some 20) with stream := bytes20.drop 4 }
        reqs := [.range "bytes=4-19".toList] } := by
  have h : formatRange 4 (some 19) = "bytes=4-19".toList := by decide +kernel
  simp only [HttpStream.seekRange, Option.map_some, h]
  simp [server20, stream20, HttpResp.isError]

theorem endlessH_seek (l : List Ev) (t : Option Nat) :
    hstep cfg20 { endlessAtH true (.seeking 4 (some 20)) l with
        sys := { (endlessAtH true (.seeking 4 (some 20)) l).sys with tlim := t } } (.seekRange (server20 headers20)) =
      some (endlessAtH false .sel l) := by
  simp only [hstep, endlessAtH, endless_request]
  rfl

theorem endlessH_start13 :
    trace (hstep cfg20) (fun _ _ => true) (fun _ => toHAct (server20 headers20)) endlessW0 endlessStartH 13 =
    { endlessAtH true (.seeking 4 (some 20)) (endlessLogH 0) with
        sys := { (endlessAtH true (.seeking 4 (some 20)) (endlessLogH 0)).sys with tlim := none } } := by
  rfl

theorem endlessH_start :
    trace (hstep cfg20) (fun _ _ => true) (fun _ => toHAct (server20 headers20)) endlessW0 endlessStartH 14 =
    endlessAtH false .sel (endlessLogH 0) := by
  have h : endlessStartH[13]? = some (.seekOk 4) := rfl
  rw [trace_succ, traceAct, h, endlessH_start13]
  simp only [Option.bind_some, pick, toHAct, endlessH_seek, Option.isSome_some, Bool.and_self, if_true,
    Option.getD_some]

/-- A time in the beginning, or a place in a round. -/
theorem endlessH_cases (i : Nat) : i < 14 ∨ ∃ k, i = 14 + 3 * k ∨ i = 14 + 3 * k + 1 ∨ i = 14 + 3 * k + 2 := by
  rcases Nat.lt_or_ge i 14 with h | h
  · exact .inl h
  · exact .inr ⟨(i - 14) / 3, by omega⟩

theorem endlessH_0 (k : Nat) : endlessRunH (14 + 3 * k) = endlessAtH false .sel (endlessLogH k) ∧
    endlessActH (14 + 3 * k) = some (.sys .eof) := by
  have h1 : ¬ 14 + 3 * k < 14 := by omega
  have h2 : (14 + 3 * k - 14) % 3 = 0 := by omega
  have h3 : (14 + 3 * k - 14) / 3 = k := by omega
  rw [endlessRunH, endlessActH, h2, h3, if_neg h1, if_neg h1]
  exact ⟨rfl, rfl⟩

theorem endlessH_1 (k : Nat) : endlessRunH (14 + 3 * k + 1) = endlessAtH true .fin (.eof :: endlessLogH k) ∧
    endlessActH (14 + 3 * k + 1) = some (.sys .src) := by
  have h1 : ¬ 14 + 3 * k + 1 < 14 := by omega
  have h2 : (14 + 3 * k + 1 - 14) % 3 = 1 := by omega
  have h3 : (14 + 3 * k + 1 - 14) / 3 = k := by omega
  rw [endlessRunH, endlessActH, h2, h3, if_neg h1, if_neg h1]
  exact ⟨rfl, rfl⟩

theorem endlessH_2 (k : Nat) : endlessRunH (14 + 3 * k + 2) =
      endlessAtH true (.seeking 4 (some 20)) (.seekRange 4 (some 20) :: .eof :: endlessLogH k) ∧
    endlessActH (14 + 3 * k + 2) = some (.seekRange (server20 headers20)) := by
  have h1 : ¬ 14 + 3 * k + 2 < 14 := by omega
  have h2 : (14 + 3 * k + 2 - 14) % 3 = 2 := by omega
  have h3 : (14 + 3 * k + 2 - 14) / 3 = k := by omega
  rw [endlessRunH, endlessActH, h2, h3, if_neg h1, if_neg h1]
  exact ⟨rfl, rfl⟩

theorem endlessH_before {i : Nat} (hi : i < 14) :
    endlessActH i = traceAct (hstep cfg20) (fun _ _ => true) (fun _ => toHAct (server20 headers20)) endlessW0
      endlessStartH i := by
  simp [endlessActH, hi]

theorem endlessH_run : Run (hstep cfg20) endlessW0 endlessRunH endlessActH := by
  have hx := run_trace (st := hstep cfg20) (g := fun _ (_ : Act) => true) (f := fun _ => toHAct (server20 headers20))
    endlessW0 endlessStartH
  have hpre : ∀ i, i ≤ 14 → endlessRunH i = trace (hstep cfg20) (fun _ _ => true)
      (fun _ => toHAct (server20 headers20)) endlessW0 endlessStartH i := by
    intro i hi
    rcases Nat.lt_or_eq_of_le hi with h | rfl
    · simp [endlessRunH, h]
    · rw [endlessH_start]
      exact (endlessH_0 0).1
  refine ⟨by rw [hpre 0 (by omega)]; exact hx.start, fun i hi => ?_, fun i a ha => ?_⟩
  · rcases endlessH_cases i with h | ⟨k, rfl | rfl | rfl⟩
    · rw [endlessH_before h] at hi
      rw [hpre i (by omega), hpre (i + 1) (by omega)]
      exact hx.pause i hi
    · rw [(endlessH_0 k).2] at hi; cases hi
    · rw [(endlessH_1 k).2] at hi; cases hi
    · rw [(endlessH_2 k).2] at hi; cases hi
  · rcases endlessH_cases i with h | ⟨k, rfl | rfl | rfl⟩
    · rw [endlessH_before h] at ha
      rw [hpre i (by omega), hpre (i + 1) (by omega)]
      exact hx.next i a ha
    · rw [(endlessH_0 k).2] at ha
      cases ha
      rw [(endlessH_0 k).1, (endlessH_1 k).1]
      exact endlessH_eof _
    · rw [(endlessH_1 k).2] at ha
      cases ha
      rw [(endlessH_1 k).1, (endlessH_2 k).1]
      exact endlessH_src _
    · rw [(endlessH_2 k).2] at ha
      cases ha
      rw [(endlessH_2 k).1, show 14 + 3 * k + 2 + 1 = 14 + 3 * (k + 1) by omega, (endlessH_0 (k + 1)).1]
      exact endlessH_seek _ _

/-- C71 fails for HTTP if bodies break off: 4 of 20 bytes have arrived, the server answers every
request for the rest as it should, and every body ends before its first byte.  The task
asks again at once, for ever, and the read never returns. -/
theorem C71_http_download_ends_violated :
    ∃ (w0 : HSys memStorage) (r : Nat → HSys memStorage) (act : Nat → Option HAct),
      HStarts memProvider cfg20 (fun _ => none) (server20 headers20) w0 ∧
      HRun cfg20 (RangeServer bytes20) w0 r act ∧ HWorking r act ∧ (∀ j f, act j ≠ some (.sys (.seek f))) ∧
      (∀ i, ∃ j, i ≤ j ∧ (r j).sys.spc = .seeking 4 (some 20) ∧ act j = some (.seekRange (server20 headers20))) ∧
      ∀ j, 14 ≤ j → (r j).sys.spc ≠ .ended ∧ (r j).sys.rpc = .rWait 8 8 := by
  refine ⟨endlessW0, endlessRunH, endlessActH,
    ⟨server20_new (by decide +kernel), rfl, rfl, rfl, demoMem20, rfl, rfl⟩,
    ⟨endlessH_run, ?_, ?_, ?_⟩, ?_, ?_, ?_, ?_⟩
  · intro i a an ha he
    rcases endlessH_cases i with h | ⟨k, rfl | rfl | rfl⟩
    · rw [endlessH_before h] at ha
      obtain ⟨b, -, -, rfl, -⟩ := traceAct_some ha
      cases b <;> simp [HAct.answer, toHAct] at he <;> subst he <;> exact headers20_ok
    · rw [(endlessH_0 k).2] at ha; cases ha; cases he
    · rw [(endlessH_1 k).2] at ha; cases ha; cases he
    · rw [(endlessH_2 k).2] at ha; cases ha; cases he; exact headers20_ok
  · exact fun i _ => ⟨14 + 3 * i + 1, by omega, (endlessH_1 i).2⟩
  · intro i h
    refine absurd ?_ (h (14 + 3 * i) (by omega))
    rw [(endlessH_0 i).1]
    rfl
  · exact fun _ i => ⟨14 + 3 * i, by omega, .inr (endlessH_0 i).2⟩
  · intro j f h
    rcases endlessH_cases j with hj | ⟨k, rfl | rfl | rfl⟩
    · rw [endlessH_before hj] at h
      exact seekless_trace (ev := some) (fun _ => toHAct_seek) (by decide +kernel) j f h
    · rw [(endlessH_0 k).2] at h; cases h
    · rw [(endlessH_1 k).2] at h; cases h
    · rw [(endlessH_2 k).2] at h; cases h
  · exact fun i => ⟨14 + 3 * i + 2, by omega, by rw [(endlessH_2 i).1]; rfl, (endlessH_2 i).2⟩
  · intro j hj
    rcases endlessH_cases j with h | ⟨k, rfl | rfl | rfl⟩
    · omega
    · rw [(endlessH_0 k).1]
      exact ⟨nofun, rfl⟩
    · rw [(endlessH_1 k).1]
      exact ⟨nofun, rfl⟩
    · rw [(endlessH_2 k).1]
      exact ⟨nofun, rfl⟩

end SD
