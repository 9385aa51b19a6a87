import Verif.Spec.System

/-!
# The steps of the system, one constructor per branch

`step` is inverted once, here; the invariant proofs go by cases on `Tr`.
-/

set_option linter.unusedSimpArgs false
set_option linter.unusedVariables false

namespace SD

variable {S : Storage}

/-- The first position from which `handle_seek` looks for a gap is covered, or the
task decides to seek. -/
def shouldSeek (c : Cfg) (s : Sys S) (p : Nat) : Prop :=
  c.supportsSeek = true ∧
    ∀ a b, RSet.get s.dl p = some (a, b) → ¬ (a ≤ S.wtell s.st ∧ S.wtell s.st < b)

/-- Where one round of `Source::write` goes next. -/
def roundPc (pos0 len : Nat) (todo : List Byte) (bw : Nat) : SrcPc :=
  if bw = 0 then .wWait pos0 len todo
  else if todo = [] then .wRep len
  else .wReq pos0 len todo

/-- Where `Source::write` starts. -/
def startPc (pos : Nat) (bs : List Byte) : SrcPc :=
  if bs = [] then .wRep 0 else .wReq pos bs.length bs

/-- The batch handed to the storage. -/
abbrev batch (c : Cfg) (todo : List Byte) : List Byte := todo.take (min c.batchSize todo.length)

/-- One branch of `step`. -/
inductive Tr (c : Cfg) (s : Sys S) : Act → Sys S → Prop
  -- the download task
  | seekIgnore (p : Nat) : s.spc = .seekMsg p → ¬ shouldSeek c s p → Tr c s .src { s with spc := .sel }
  | seekRestart (p n a b : Nat) : s.spc = .seekMsg p → shouldSeek c s p → s.pfDone = true →
      c.contentLength = some n → RSet.nextGap s.dl (min (S.wtell s.st) p) n = some (a, b) →
      Tr c s .src { s with pfStart := p, pfDone := false, spc := .seeking (max a p) (some b)
                           log := .seekRange (max a p) (some b) :: s.log }
  | seekRestartNone (p n : Nat) : s.spc = .seekMsg p → shouldSeek c s p → s.pfDone = true →
      c.contentLength = some n → RSet.nextGap s.dl (min (S.wtell s.st) p) n = none →
      Tr c s .src { s with pfStart := p, pfDone := false, spc := .sel }
  | seekRestartUnk (p : Nat) : s.spc = .seekMsg p → shouldSeek c s p → s.pfDone = true →
      c.contentLength = none →
      Tr c s .src { s with pfStart := p, pfDone := false, spc := .seeking p none
                           log := .seekRange p none :: s.log }
  | seekAbort (p n a b : Nat) : s.spc = .seekMsg p → shouldSeek c s p → s.pfDone = false →
      c.contentLength = some n →
      RSet.nextGap (RSet.add s.dl s.pfStart (S.wtell s.st)) (min (S.wtell s.st) p) n = some (a, b) →
      Tr c s .src { s with dl := RSet.add s.dl s.pfStart (S.wtell s.st), pfDone := true
                           spc := .seeking (max a p) (some b)
                           log := .seekRange (max a p) (some b) :: s.log }
  | seekAbortNone (p n : Nat) : s.spc = .seekMsg p → shouldSeek c s p → s.pfDone = false →
      c.contentLength = some n →
      RSet.nextGap (RSet.add s.dl s.pfStart (S.wtell s.st)) (min (S.wtell s.st) p) n = none →
      Tr c s .src { s with dl := RSet.add s.dl s.pfStart (S.wtell s.st), pfDone := true, spc := .sel }
  | seekAbortUnk (p : Nat) : s.spc = .seekMsg p → shouldSeek c s p → s.pfDone = false →
      c.contentLength = none →
      Tr c s .src { s with dl := RSet.add s.dl s.pfStart (S.wtell s.st), pfDone := true
                           spc := .seeking p none, log := .seekRange p none :: s.log }
  | pfWriteMore (len : Nat) (todo : List Byte) (k : Nat) (st' : S.σ) : s.spc = .pfWrite len todo →
      S.write s.st (batch c todo) = .ok (k, st') → k ≠ 0 →
      Tr c s .src { s with st := st', spc := .pfWrite len (todo.drop k)
                           log := .write (S.wtell s.st) (batch c todo) k :: s.log }
  | pfWriteEnd (len : Nat) (todo : List Byte) (st' : S.σ) : s.spc = .pfWrite len todo →
      S.write s.st (batch c todo) = .ok (0, st') →
      Tr c s .src { s with st := st', spc := .pfPost len todo
                           log := .write (S.wtell s.st) (batch c todo) 0 :: s.log }
  | pfWriteErr (len : Nat) (todo : List Byte) (k : Kind) : s.spc = .pfWrite len todo →
      S.write s.st (batch c todo) = .err k → Tr c s .src { s with spc := .onFin (some k) .completed }
  | pfWritePanic (len : Nat) (todo : List Byte) : s.spc = .pfWrite len todo →
      S.write s.st (batch c todo) = .panic → Tr c s .src { s with spc := .panicked }
  | pfPostMore (len : Nat) : s.spc = .pfPost len [] →
      ¬ s.pfStart + c.prefetchBytes ≤ S.wtell s.st →
      Tr c s .src { s with spc := .sel
                           log := .progress (S.wtell s.st) (0, S.wtell s.st) (.prefetching len) :: s.log }
  | pfPostDone (len : Nat) : s.spc = .pfPost len [] →
      s.pfStart + c.prefetchBytes ≤ S.wtell s.st →
      Tr c s .src { s with dl := RSet.add s.dl s.pfStart (S.wtell s.st), pfDone := true, spc := .sel
                           log := .progress (S.wtell s.st) (0, S.wtell s.st) (.prefetching len) :: s.log }
  | pfPostPart (len : Nat) (todo : List Byte) : s.spc = .pfPost len todo → todo ≠ [] →
      Tr c s .src { s with rem := some todo, dl := RSet.add s.dl s.pfStart (S.wtell s.st), pfDone := true
                           spc := .sel
                           log := .progress (S.wtell s.st) (0, S.wtell s.st)
                             (.prefetching (len - todo.length)) :: s.log }
  | wReq (pos0 len : Nat) (todo : List Byte) : s.spc = .wReq pos0 len todo →
      Tr c s .src { s with writeReq := true, spc := .wWrite pos0 len todo 0 }
  | wWriteMore (pos0 len : Nat) (todo : List Byte) (bw k : Nat) (st' : S.σ) :
      s.spc = .wWrite pos0 len todo bw → S.write s.st (batch c todo) = .ok (k, st') → k ≠ 0 →
      Tr c s .src { s with st := st', spc := .wWrite pos0 len (todo.drop k) (bw + k)
                           log := .write (S.wtell s.st) (batch c todo) k :: s.log }
  | wWriteEnd (pos0 len : Nat) (todo : List Byte) (bw : Nat) (st' : S.σ) :
      s.spc = .wWrite pos0 len todo bw → S.write s.st (batch c todo) = .ok (0, st') →
      Tr c s .src { s with st := st', spc := .wAdd pos0 len todo bw
                           log := .write (S.wtell s.st) (batch c todo) 0 :: s.log }
  | wWriteErr (pos0 len : Nat) (todo : List Byte) (bw : Nat) (k : Kind) :
      s.spc = .wWrite pos0 len todo bw → S.write s.st (batch c todo) = .err k →
      Tr c s .src { s with spc := .onFin (some k) .completed }
  | wWritePanic (pos0 len : Nat) (todo : List Byte) (bw : Nat) :
      s.spc = .wWrite pos0 len todo bw → S.write s.st (batch c todo) = .panic →
      Tr c s .src { s with spc := .panicked }
  | wAdd (pos0 len : Nat) (todo : List Byte) (bw : Nat) : s.spc = .wAdd pos0 len todo bw →
      Tr c s .src { s with dl := RSet.add s.dl pos0 (S.wtell s.st), spc := .wChk pos0 len todo bw }
  | wChkHit (pos0 len : Nat) (todo : List Byte) (bw r : Nat) : s.spc = .wChk pos0 len todo bw →
      s.req = some r → r ≤ S.wtell s.st → Tr c s .src { s with spc := .wClr pos0 len todo bw }
  | wChkMiss (pos0 len : Nat) (todo : List Byte) (bw : Nat) : s.spc = .wChk pos0 len todo bw →
      (∀ r, s.req = some r → S.wtell s.st < r) →
      Tr c s .src { s with spc := roundPc pos0 len todo bw }
  | wClr (pos0 len : Nat) (todo : List Byte) (bw : Nat) : s.spc = .wClr pos0 len todo bw →
      Tr c s .src { s with req := none, spc := .wNtf pos0 len todo bw }
  | wNtf (pos0 len : Nat) (todo : List Byte) (bw : Nat) : s.spc = .wNtf pos0 len todo bw →
      Tr c s .src { s with reached := true, spc := roundPc pos0 len todo bw
                           log := .notified (S.wtell s.st) :: s.log }
  | wWait (pos0 len : Nat) (todo : List Byte) : s.spc = .wWait pos0 len todo → s.permit = true →
      Tr c s .src { s with permit := false, spc := .wReq pos0 len todo }
  | wRep (len : Nat) (r : Nat × Nat) : s.spc = .wRep len → S.wtell s.st ≠ 0 →
      RSet.get s.dl (S.wtell s.st - 1) = some r →
      Tr c s .src { s with spc := .sel, log := .progress (S.wtell s.st) r (.downloading len) :: s.log }
  | wRepPanic (len : Nat) : s.spc = .wRep len →
      (S.wtell s.st = 0 ∨ RSet.get s.dl (S.wtell s.st - 1) = none) →
      Tr c s .src { s with spc := .panicked }
  | finGap (n a b : Nat) : s.spc = .fin → c.supportsSeek = true → c.contentLength = some n →
      RSet.nextGap s.dl 0 n = some (a, b) →
      Tr c s .src { s with spc := .seeking a (some b), log := .seekRange a (some b) :: s.log }
  | finDone : s.spc = .fin →
      (c.supportsSeek = true → ∀ n, c.contentLength = some n → RSet.nextGap s.dl 0 n = none) →
      Tr c s .src { s with spc := .finSig }
  | finSig : s.spc = .finSig → Tr c s .src { s with done := true, spc := .report }
  | report : s.spc = .report →
      Tr c s .src { s with spc := .onFin none .completed
                           log := .progress (S.wtell s.st)
                             ((RSet.get s.dl (max (S.wtell s.st) 1 - 1)).getD (0, 0)) .complete :: s.log }
  | onFinErr (r : Option Kind) (o : Outcome) (k : Kind) : s.spc = .onFin r o →
      c.onFinish r o = some k → Tr c s .src { s with spc := .setFail, log := .onFinish r o :: s.log }
  | onFinOk (r : Option Kind) (o : Outcome) : s.spc = .onFin r o →
      c.onFinish r o = none → Tr c s .src { s with spc := .sigDone, log := .onFinish r o :: s.log }
  | setFail : s.spc = .setFail → Tr c s .src { s with failed := true, spc := .sigDone }
  | sigDone : s.spc = .sigDone → Tr c s .src { s with done := true, spc := .tokCancel }
  | tokCancel : s.spc = .tokCancel → Tr c s .src { s with cancelled := true, spc := .ended }
  -- choices of the environment
  | recvSeek (p : Nat) : s.spc = .sel → s.seekQ = some p →
      Tr c s .recvSeek { s with seekQ := none, spc := .seekMsg p }
  | chunkPf (n : Nat) : s.spc = .sel → s.tend = false → leOpt (s.tpos + n) s.tlim = true →
      leOpt (s.tpos + n) c.remoteLen = true → s.pfDone = false →
      Tr c s (.chunk n) { s with tpos := s.tpos + n
                                 spc := .pfWrite n (slice c.remote s.tpos n)
                                 log := .chunk (slice c.remote s.tpos n) :: s.log }
  | chunkRem (n : Nat) (r : List Byte) : s.spc = .sel → s.tend = false →
      leOpt (s.tpos + n) s.tlim = true → leOpt (s.tpos + n) c.remoteLen = true →
      s.pfDone = true → s.rem = some r →
      Tr c s (.chunk n) { s with tpos := s.tpos + n, rem := none
                                 spc := startPc (S.wtell s.st) (r ++ slice c.remote s.tpos n)
                                 log := .chunk (slice c.remote s.tpos n) :: s.log }
  | chunk (n : Nat) : s.spc = .sel → s.tend = false → leOpt (s.tpos + n) s.tlim = true →
      leOpt (s.tpos + n) c.remoteLen = true → s.pfDone = true → s.rem = none →
      Tr c s (.chunk n) { s with tpos := s.tpos + n
                                 spc := startPc (S.wtell s.st) (slice c.remote s.tpos n)
                                 log := .chunk (slice c.remote s.tpos n) :: s.log }
  | chunkErr : s.spc = .sel → Tr c s .chunkErr { s with log := .chunkErr :: s.log }
  | eofPf : s.spc = .sel → s.pfDone = false →
      Tr c s .eof { s with tend := true, pfDone := true, dl := RSet.add s.dl s.pfStart (S.wtell s.st)
                           spc := .fin, log := .eof :: s.log }
  | eofRem (r : List Byte) : s.spc = .sel → s.pfDone = true → s.rem = some r →
      Tr c s .eof { s with tend := true, rem := none, spc := startPc (S.wtell s.st) r
                           log := .eof :: s.log }
  | eof : s.spc = .sel → s.pfDone = true → s.rem = none →
      Tr c s .eof { s with tend := true, spc := .fin, log := .eof :: s.log }
  | timeout : s.spc = .sel →
      Tr c s .timeout { s with spc := .reconn (S.wtell s.st), log := .reconnect (S.wtell s.st) :: s.log }
  | seeCancel : s.spc = .sel → s.cancelled = true →
      Tr c s .seeCancel { s with spc := .onFin (some .interrupted) .cancelled }
  | seekOk (start : Nat) (stop : Option Nat) (pos : Nat) (st' : S.σ) : s.spc = .seeking start stop →
      S.wseek s.st start = .ok st' →
      Tr c s (.seekOk pos) { s with st := st', tpos := pos, tlim := if pos = start then stop else none, tend := false
                                    spc := .sel }
  | seekOkErr (start : Nat) (stop : Option Nat) (pos : Nat) (k : Kind) : s.spc = .seeking start stop →
      S.wseek s.st start = .err k → Tr c s (.seekOk pos) { s with spc := .onFin (some k) .completed }
  | seekOkPanic (start : Nat) (stop : Option Nat) (pos : Nat) : s.spc = .seeking start stop →
      S.wseek s.st start = .panic → Tr c s (.seekOk pos) { s with spc := .panicked }
  | seekFail (start : Nat) (stop : Option Nat) (k : Kind) : s.spc = .seeking start stop →
      Tr c s (.seekFail k) { s with spc := .onFin (some k) .completed }
  | reconnOk (p pos : Nat) : s.spc = .reconn p →
      Tr c s (.reconnOk pos) { s with tpos := pos, tlim := none, tend := false, spc := .sel
                                      log := .onReconnect true :: s.log }
  | reconnFail (p : Nat) : s.spc = .reconn p →
      Tr c s .reconnFail { s with spc := .sel, log := .onReconnect false :: s.log }
  | reconnTimeout (p : Nat) : s.spc = .reconn p → Tr c s .reconnTimeout { s with spc := .sel }
  -- the consumer
  | rDecidePanic (n : Nat) : s.rpc = .rDecide n → two64 ≤ (S.tell s.st).1 + n →
      Tr c s .rdr { s with st := (S.tell s.st).2, rpc := .panicked }
  | rDecideFast (n a b : Nat) : s.rpc = .rDecide n → (S.tell s.st).1 + n < two64 →
      RSet.get s.dl (S.tell s.st).1 = some (a, b) → c.normalize ((S.tell s.st).1 + n) ≤ b →
      Tr c s .rdr { s with st := (S.tell s.st).2, rpc := .rRead n true }
  | rDecideWait (n : Nat) : s.rpc = .rDecide n → (S.tell s.st).1 + n < two64 →
      (∀ a b, RSet.get s.dl (S.tell s.st).1 = some (a, b) → b < c.normalize ((S.tell s.st).1 + n)) →
      Tr c s .rdr { s with st := (S.tell s.st).2, rpc := .rSet n (c.normalize ((S.tell s.st).1 + n)) }
  | rSet (n r : Nat) : s.rpc = .rSet n r →
      Tr c s .rdr { s with req := storeReq r, rpc := .rLoad n r, log := .request r :: s.log }
  | rLoadHit (n r : Nat) : s.rpc = .rLoad n r → s.writeReq = true →
      Tr c s .rdr { s with rpc := .rNotify n r }
  | rLoadMiss (n r : Nat) : s.rpc = .rLoad n r → s.writeReq = false →
      Tr c s .rdr { s with rpc := .rWait n r }
  | rNotify (n r : Nat) : s.rpc = .rNotify n r →
      Tr c s .rdr { s with permit := true, rpc := .rWait n r }
  | rWaitDone (n r : Nat) : s.rpc = .rWait n r → s.done = true →
      Tr c s .rdr { s with rpc := .rCheck n r, log := .released true :: s.log }
  | rWaitReached (n r : Nat) : s.rpc = .rWait n r → s.done = false → s.reached = true →
      Tr c s .rdr { s with reached := false, rpc := .rCheck n r, log := .released false :: s.log }
  | rCheckFail (n r : Nat) : s.rpc = .rCheck n r → s.failed = true →
      Tr c s .rdr { s with rpc := .idle, log := .readErr n .other :: s.log }
  | rCheckOk (n r : Nat) : s.rpc = .rCheck n r → s.failed = false →
      Tr c s .rdr { s with rpc := .rRead n false }
  | rRead (n : Nat) (fast : Bool) (bs : List Byte) (st' : S.σ) : s.rpc = .rRead n fast →
      S.read s.st n = .ok (bs, st') →
      Tr c s .rdr { s with st := st', rpc := .rSwap
                           log := .readRet (S.tell s.st).1 n fast (.ok bs) :: s.log }
  | rReadErr (n : Nat) (fast : Bool) (k : Kind) : s.rpc = .rRead n fast → S.read s.st n = .err k →
      Tr c s .rdr { s with rpc := .rSwap, log := .readRet (S.tell s.st).1 n fast (.err k) :: s.log }
  | rReadPanic (n : Nat) (fast : Bool) : s.rpc = .rRead n fast → S.read s.st n = .panic →
      Tr c s .rdr { s with rpc := .panicked, log := .readRet (S.tell s.st).1 n fast .panic :: s.log }
  | rSwapHit : s.rpc = .rSwap → s.writeReq = true →
      Tr c s .rdr { s with writeReq := false, rpc := .rWake }
  | rSwapMiss : s.rpc = .rSwap → s.writeReq = false →
      Tr c s .rdr { s with writeReq := false, rpc := .idle }
  | rWake : s.rpc = .rWake → Tr c s .rdr { s with permit := true, rpc := .idle }
  | sDecideHit (p : Nat) (r : Nat × Nat) : s.rpc = .sDecide p → RSet.get s.dl p = some r →
      Tr c s .rdr { s with rpc := .sSeek p }
  | sDecideMiss (p : Nat) : s.rpc = .sDecide p → RSet.get s.dl p = none →
      Tr c s .rdr { s with rpc := .sSet p }
  | sSet (p : Nat) : s.rpc = .sSet p →
      Tr c s .rdr { s with req := storeReq p, rpc := .sSend p, log := .request p :: s.log }
  | sSendFull (p q : Nat) : s.rpc = .sSend p → s.seekQ = some q →
      Tr c s .rdr { s with rpc := .sWait p }
  | sSend (p : Nat) : s.rpc = .sSend p → s.seekQ = none →
      Tr c s .rdr { s with seekQ := some p, rpc := .sWait p }
  | sWaitDone (p : Nat) : s.rpc = .sWait p → s.done = true →
      Tr c s .rdr { s with rpc := .sCheck p, log := .released true :: s.log }
  | sWaitReached (p : Nat) : s.rpc = .sWait p → s.done = false → s.reached = true →
      Tr c s .rdr { s with reached := false, rpc := .sCheck p, log := .released false :: s.log }
  | sCheckFail (p : Nat) : s.rpc = .sCheck p → s.failed = true →
      Tr c s .rdr { s with rpc := .idle, log := .seekErr .other :: s.log }
  | sCheckOk (p : Nat) : s.rpc = .sCheck p → s.failed = false →
      Tr c s .rdr { s with rpc := .sSeek p }
  | sSeek (p : Nat) (st' : S.σ) : s.rpc = .sSeek p → S.rseek s.st p = .ok st' →
      Tr c s .rdr { s with st := st', rpc := .idle, log := .seekRet p (.ok p) :: s.log }
  | sSeekErr (p : Nat) (k : Kind) : s.rpc = .sSeek p → S.rseek s.st p = .err k →
      Tr c s .rdr { s with rpc := .idle, log := .seekRet p (.err k) :: s.log }
  | sSeekPanic (p : Nat) : s.rpc = .sSeek p → S.rseek s.st p = .panic →
      Tr c s .rdr { s with rpc := .panicked, log := .seekRet p .panic :: s.log }
  | readFailed (n : Nat) : s.rpc = .idle → s.failed = true →
      Tr c s (.read n) { s with log := .readErr n .other :: s.log }
  | readExcess (n : Nat) : s.rpc = .idle → s.failed = false → c.excessiveRead n = true →
      Tr c s (.read n) { s with log := .readErr n .invalidInput :: s.log }
  | read (n : Nat) : s.rpc = .idle → s.failed = false → c.excessiveRead n = false →
      Tr c s (.read n) { s with rpc := .rDecide n }
  | seekFailed (f : SeekFrom) : s.rpc = .idle → f.valid = true → s.failed = true →
      Tr c s (.seek f) { s with log := .seekErr .other :: s.log }
  | seekErr (f : SeekFrom) (k : Kind) : s.rpc = .idle → f.valid = true → s.failed = false →
      c.absolute (S.tell s.st).1 f = .err k → Tr c s (.seek f) { s with log := .seekErr k :: s.log }
  | seekPanic (f : SeekFrom) : s.rpc = .idle → f.valid = true → s.failed = false →
      c.absolute (S.tell s.st).1 f = .panic → Tr c s (.seek f) { s with rpc := .panicked }
  | seekExcess (f : SeekFrom) (p : Nat) : s.rpc = .idle → f.valid = true → s.failed = false →
      c.absolute (S.tell s.st).1 f = .ok p →
      c.excessiveSeek (S.tell s.st).1 (c.normalize p) = true →
      Tr c s (.seek f) { s with log := .seekErr .invalidInput :: s.log }
  | seek (f : SeekFrom) (p : Nat) : s.rpc = .idle → f.valid = true → s.failed = false →
      c.absolute (S.tell s.st).1 f = .ok p →
      c.excessiveSeek (S.tell s.st).1 (c.normalize p) = false →
      Tr c s (.seek f) { s with st := (S.tell s.st).2, rpc := .sDecide (c.normalize p) }
  | cancel : Tr c s .cancel { s with cancelled := true }
  | drop : s.rpc = .idle →
      Tr c s .drop { s with rpc := .dropped, cancelled := s.cancelled || c.cancelOnDrop }

theorem startWrite_eq (s : Sys S) (bs : List Byte) :
    startWrite s bs = { s with spc := startPc (S.wtell s.st) bs } := by
  unfold startWrite startPc; split <;> rfl

theorem nextRound_eq (s : Sys S) (pos0 len : Nat) (todo : List Byte) (bw : Nat) :
    nextRound s pos0 len todo bw = { s with spc := roundPc pos0 len todo bw } := by
  unfold nextRound roundPc
  split
  · rfl
  · split <;> rfl

theorem tr_of_handleSeek {c : Cfg} {s : Sys S} {p : Nat} (h : s.spc = .seekMsg p) :
    Tr c s .src (handleSeek c s p) := by
  unfold handleSeek
  extract_lets cur should s1
  by_cases hs : should = true
  · have hsh : shouldSeek c s p := by
      revert hs
      simp only [should]
      cases hss : c.supportsSeek
      · simp
      · cases hg : RSet.get s.dl p with
        | none => intro _; exact ⟨hss, by simp [hg]⟩
        | some r =>
          obtain ⟨a, b⟩ := r
          intro hs
          refine ⟨hss, ?_⟩
          intro a' b' hab
          rw [hg] at hab
          obtain ⟨rfl, rfl⟩ := Prod.mk.inj (Option.some.inj hab)
          have hs2 : S.wtell s.st < a ∨ b ≤ S.wtell s.st := by simpa [cur, hg, hss] using hs
          omega
    simp only [hs, Bool.not_true, Bool.false_eq_true, if_false]
    cases hpf : s.pfDone
    · have hs1 : s1 = { s with dl := RSet.add s.dl s.pfStart cur, pfDone := true } := by
        simp [s1, hpf]
      rw [hs1]
      cases hcl : c.contentLength with
      | none => exact Tr.seekAbortUnk p h hsh hpf hcl
      | some n =>
        dsimp only
        cases hg : RSet.nextGap (RSet.add s.dl s.pfStart cur) (min cur p) n with
        | none => exact Tr.seekAbortNone p n h hsh hpf hcl hg
        | some r => exact Tr.seekAbort p n r.1 r.2 h hsh hpf hcl hg
    · have hs1 : s1 = { s with pfStart := p, pfDone := false } := by
        simp [s1, hpf]
      rw [hs1]
      cases hcl : c.contentLength with
      | none => exact Tr.seekRestartUnk p h hsh hpf hcl
      | some n =>
        dsimp only
        cases hg : RSet.nextGap s.dl (min cur p) n with
        | none => exact Tr.seekRestartNone p n h hsh hpf hcl hg
        | some r => exact Tr.seekRestart p n r.1 r.2 h hsh hpf hcl hg
  · have hsh : ¬ shouldSeek c s p := by
      intro hsh
      apply hs
      simp only [should, hsh.1, Bool.not_true, Bool.false_eq_true, if_false]
      cases hg : RSet.get s.dl p with
      | none => rfl
      | some r =>
        obtain ⟨a, b⟩ := r
        have := hsh.2 a b hg
        simp only [Bool.not_eq_true', Bool.and_eq_false_iff, decide_eq_false_iff_not]
        simp only [cur]
        by_cases h1 : a ≤ S.wtell s.st
        · right; intro h2; exact this ⟨h1, h2⟩
        · left; exact h1
    have hs' : should = false := by simpa using hs
    simp only [hs', Bool.not_false, if_true]
    exact Tr.seekIgnore p h hsh

theorem tr_of_src {c : Cfg} {s s' : Sys S} (h : srcStep c s = some s') : Tr c s .src s' := by
  unfold srcStep at h
  split at h
  case h_1 p heq =>
    simp only [Option.some.injEq] at h; subst h
    exact tr_of_handleSeek heq
  case h_2 len todo heq =>
    dsimp only at h
    split at h
    · next k st' hw =>
      simp only [Option.some.injEq] at h; subst h
      split
      · next hk => subst hk; exact Tr.pfWriteEnd len todo st' heq hw
      · next hk => exact Tr.pfWriteMore len todo k st' heq hw hk
    · next k hw =>
      simp only [Option.some.injEq] at h; subst h
      exact Tr.pfWriteErr len todo k heq hw
    · next hw =>
      simp only [Option.some.injEq] at h; subst h
      exact Tr.pfWritePanic len todo heq hw
  case h_3 len todo heq =>
    simp only [Option.some.injEq] at h; subst h
    by_cases ht : todo = []
    · subst ht
      by_cases hp : s.pfStart + c.prefetchBytes ≤ S.wtell s.st
      · have := Tr.pfPostDone (c := c) len heq hp
        simpa [hp] using this
      · have := Tr.pfPostMore (c := c) len heq hp
        simpa [hp] using this
    · have := Tr.pfPostPart (c := c) len todo heq ht
      simpa [ht] using this
  case h_4 pos0 len todo heq =>
    simp only [Option.some.injEq] at h; subst h
    exact Tr.wReq pos0 len todo heq
  case h_5 pos0 len todo bw heq =>
    dsimp only at h
    split at h
    · next k st' hw =>
      simp only [Option.some.injEq] at h; subst h
      split
      · next hk => subst hk; exact Tr.wWriteEnd pos0 len todo bw st' heq hw
      · next hk => exact Tr.wWriteMore pos0 len todo bw k st' heq hw hk
    · next k hw =>
      simp only [Option.some.injEq] at h; subst h
      exact Tr.wWriteErr pos0 len todo bw k heq hw
    · next hw =>
      simp only [Option.some.injEq] at h; subst h
      exact Tr.wWritePanic pos0 len todo bw heq hw
  case h_6 pos0 len todo bw heq =>
    simp only [Option.some.injEq] at h; subst h
    exact Tr.wAdd pos0 len todo bw heq
  case h_7 pos0 len todo bw heq =>
    split at h
    · next r hr =>
      split at h
      · next hle =>
        simp only [Option.some.injEq] at h; subst h
        exact Tr.wChkHit pos0 len todo bw r heq hr hle
      · next hle =>
        simp only [Option.some.injEq, nextRound_eq] at h; subst h
        refine Tr.wChkMiss pos0 len todo bw heq ?_
        intro r' hr'
        rw [hr] at hr'
        cases hr'
        omega
    · next hr =>
      simp only [Option.some.injEq, nextRound_eq] at h; subst h
      exact Tr.wChkMiss pos0 len todo bw heq (by simp [hr])
  case h_8 pos0 len todo bw heq =>
    simp only [Option.some.injEq] at h; subst h
    exact Tr.wClr pos0 len todo bw heq
  case h_9 pos0 len todo bw heq =>
    simp only [Option.some.injEq, nextRound_eq] at h; subst h
    exact Tr.wNtf pos0 len todo bw heq
  case h_10 pos0 len todo heq =>
    split at h
    · next hp =>
      simp only [Option.some.injEq] at h; subst h
      exact Tr.wWait pos0 len todo heq hp
    · simp at h
  case h_11 len heq =>
    dsimp only at h
    split at h
    · next hz =>
      simp only [Option.some.injEq] at h; subst h
      exact Tr.wRepPanic len heq (Or.inl hz)
    · next hz =>
      split at h
      · next r hg =>
        simp only [Option.some.injEq] at h; subst h
        exact Tr.wRep len r heq hz hg
      · next hg =>
        simp only [Option.some.injEq] at h; subst h
        exact Tr.wRepPanic len heq (Or.inr hg)
  case h_12 heq =>
    split at h
    · next n hss hcl =>
      split at h
      · next a b hg =>
        simp only [Option.some.injEq] at h; subst h
        exact Tr.finGap n a b heq hss hcl hg
      · next hg =>
        simp only [Option.some.injEq] at h; subst h
        refine Tr.finDone heq ?_
        intro _ n' hn'
        rw [hcl] at hn'
        cases hn'
        exact hg
    · next hno =>
      simp only [Option.some.injEq] at h; subst h
      exact Tr.finDone heq (fun hss n hn => (hno n hss hn).elim)
  case h_13 heq =>
    simp only [Option.some.injEq] at h; subst h
    exact Tr.finSig heq
  case h_14 heq =>
    simp only [Option.some.injEq] at h; subst h
    exact Tr.report heq
  case h_15 r o heq =>
    dsimp only at h
    split at h
    · next k hk =>
      simp only [Option.some.injEq] at h; subst h
      exact Tr.onFinErr r o k heq hk
    · next hk =>
      simp only [Option.some.injEq] at h; subst h
      exact Tr.onFinOk r o heq hk
  case h_16 heq =>
    simp only [Option.some.injEq] at h; subst h
    exact Tr.setFail heq
  case h_17 heq =>
    simp only [Option.some.injEq] at h; subst h
    exact Tr.sigDone heq
  case h_18 heq =>
    simp only [Option.some.injEq] at h; subst h
    exact Tr.tokCancel heq
  all_goals simp at h

theorem tr_of_rdr {c : Cfg} {s s' : Sys S} (h : rdrStep c s = some s') : Tr c s .rdr s' := by
  unfold rdrStep at h
  split at h
  case h_1 n heq =>
    dsimp only at h
    split at h
    · next hov =>
      simp only [Option.some.injEq] at h; subst h
      exact Tr.rDecidePanic n heq hov
    · next hov =>
      have hov' := Nat.lt_of_not_le hov
      split at h
      · next x b hg =>
        split at h
        · next hle =>
          simp only [Option.some.injEq] at h; subst h
          exact Tr.rDecideFast n x b heq hov' hg hle
        · next hle =>
          simp only [Option.some.injEq] at h; subst h
          refine Tr.rDecideWait n heq hov' ?_
          intro a' b' hg'
          rw [hg] at hg'
          obtain ⟨_, rfl⟩ := Prod.mk.inj (Option.some.inj hg')
          omega
      · next hg =>
        simp only [Option.some.injEq] at h; subst h
        exact Tr.rDecideWait n heq hov' (by simp [hg])
  case h_2 n r heq =>
    simp only [Option.some.injEq] at h; subst h
    exact Tr.rSet n r heq
  case h_3 n r heq =>
    simp only [Option.some.injEq] at h; subst h
    cases hw : s.writeReq
    · simpa [hw] using (Tr.rLoadMiss n r heq hw : Tr c s _ _)
    · simpa [hw] using (Tr.rLoadHit n r heq hw : Tr c s _ _)
  case h_4 n r heq =>
    simp only [Option.some.injEq] at h; subst h
    exact Tr.rNotify n r heq
  case h_5 n r heq =>
    split at h
    · next hd =>
      simp only [Option.some.injEq] at h; subst h
      exact Tr.rWaitDone n r heq hd
    · next hd =>
      split at h
      · next hr =>
        simp only [Option.some.injEq] at h; subst h
        exact Tr.rWaitReached n r heq (by simpa using hd) hr
      · simp at h
  case h_6 n r heq =>
    split at h
    · next hf =>
      simp only [Option.some.injEq] at h; subst h
      exact Tr.rCheckFail n _ heq hf
    · next hf =>
      simp only [Option.some.injEq] at h; subst h
      exact Tr.rCheckOk n _ heq (by simpa using hf)
  case h_7 n fast heq =>
    split at h
    · next bs st' hr =>
      simp only [Option.some.injEq] at h; subst h
      exact Tr.rRead n fast bs st' heq hr
    · next k hr =>
      simp only [Option.some.injEq] at h; subst h
      exact Tr.rReadErr n fast k heq hr
    · next hr =>
      simp only [Option.some.injEq] at h; subst h
      exact Tr.rReadPanic n fast heq hr
  case h_8 heq =>
    simp only [Option.some.injEq] at h; subst h
    cases hw : s.writeReq
    · simpa [hw] using (Tr.rSwapMiss heq hw : Tr c s _ _)
    · simpa [hw] using (Tr.rSwapHit heq hw : Tr c s _ _)
  case h_9 heq =>
    simp only [Option.some.injEq] at h; subst h
    exact Tr.rWake heq
  case h_10 p heq =>
    split at h
    · next r hg =>
      simp only [Option.some.injEq] at h; subst h
      exact Tr.sDecideHit p r heq hg
    · next hg =>
      simp only [Option.some.injEq] at h; subst h
      exact Tr.sDecideMiss p heq hg
  case h_11 p heq =>
    simp only [Option.some.injEq] at h; subst h
    exact Tr.sSet p heq
  case h_12 p heq =>
    simp only [Option.some.injEq] at h; subst h
    cases hq : s.seekQ with
    | none => simpa [hq] using (Tr.sSend p heq hq : Tr c s _ _)
    | some q =>
      have := Tr.sSendFull (c := c) p q heq hq
      simpa [hq] using this
  case h_13 p heq =>
    split at h
    · next hd =>
      simp only [Option.some.injEq] at h; subst h
      exact Tr.sWaitDone p heq hd
    · next hd =>
      split at h
      · next hr =>
        simp only [Option.some.injEq] at h; subst h
        exact Tr.sWaitReached p heq (by simpa using hd) hr
      · simp at h
  case h_14 p heq =>
    split at h
    · next hf =>
      simp only [Option.some.injEq] at h; subst h
      exact Tr.sCheckFail p heq hf
    · next hf =>
      simp only [Option.some.injEq] at h; subst h
      exact Tr.sCheckOk p heq (by simpa using hf)
  case h_15 p heq =>
    split at h
    · next st' hr =>
      simp only [Option.some.injEq] at h; subst h
      exact Tr.sSeek p st' heq hr
    · next k hr =>
      simp only [Option.some.injEq] at h; subst h
      exact Tr.sSeekErr p k heq hr
    · next hr =>
      simp only [Option.some.injEq] at h; subst h
      exact Tr.sSeekPanic p heq hr
  all_goals simp at h

/-- Every step is one of the branches. -/
theorem tr_of_step {c : Cfg} {s s' : Sys S} {a : Act} (h : step c s a = some s') : Tr c s a s' := by
  cases a with
  | src => exact tr_of_src h
  | rdr => exact tr_of_rdr h
  | recvSeek =>
    simp only [step] at h
    split at h
    · next p h1 h2 =>
      simp only [Option.some.injEq] at h; subst h
      exact Tr.recvSeek p h1 h2
    · simp at h
  | chunk n =>
    simp only [step] at h
    split at h
    · next hg =>
      obtain ⟨h1, h2, h3, h4⟩ := hg
      simp only [Option.some.injEq, handleChunk] at h; subst h
      cases hpf : s.pfDone
      · have := Tr.chunkPf n h1 h2 h3 h4 hpf
        simpa [hpf, slice] using this
      · simp only [Bool.not_true, Bool.false_eq_true, if_false, startWrite_eq]
        cases hr : s.rem with
        | none => simpa [hpf, hr] using (Tr.chunk n h1 h2 h3 h4 hpf hr : Tr c s _ _)
        | some r => simpa [hpf, hr] using (Tr.chunkRem n r h1 h2 h3 h4 hpf hr : Tr c s _ _)
    · simp at h
  | chunkErr =>
    simp only [step] at h
    split at h
    · next hg =>
      simp only [Option.some.injEq] at h; subst h
      exact Tr.chunkErr hg
    · simp at h
  | eof =>
    simp only [step] at h
    split at h
    · next hg =>
      simp only [Option.some.injEq, handleEof] at h; subst h
      cases hpf : s.pfDone
      · simpa [hpf] using (Tr.eofPf hg hpf : Tr c s _ _)
      · simp only [Bool.not_true, Bool.false_eq_true, if_false, startWrite_eq]
        cases hr : s.rem with
        | none => simpa [hpf, hr] using (Tr.eof hg hpf hr : Tr c s _ _)
        | some r => simpa [hpf, hr] using (Tr.eofRem r hg hpf hr : Tr c s _ _)
    · simp at h
  | timeout =>
    simp only [step] at h
    split at h
    · next hg =>
      simp only [Option.some.injEq] at h; subst h
      exact Tr.timeout hg
    · simp at h
  | seeCancel =>
    simp only [step] at h
    split at h
    · next hg =>
      simp only [Option.some.injEq] at h; subst h
      exact Tr.seeCancel hg.1 hg.2
    · simp at h
  | seekOk pos =>
    simp only [step] at h
    split at h
    · next start stop hg =>
      split at h
      · next st' hw =>
        simp only [Option.some.injEq] at h; subst h
        exact Tr.seekOk start stop pos st' hg hw
      · next k hw =>
        simp only [Option.some.injEq] at h; subst h
        exact Tr.seekOkErr start stop pos k hg hw
      · next hw =>
        simp only [Option.some.injEq] at h; subst h
        exact Tr.seekOkPanic start stop pos hg hw
    · simp at h
  | seekFail k =>
    simp only [step] at h
    split at h
    · next start stop hg =>
      simp only [Option.some.injEq] at h; subst h
      exact Tr.seekFail start stop k hg
    · simp at h
  | reconnOk pos =>
    simp only [step] at h
    split at h
    · next p hg =>
      simp only [Option.some.injEq] at h; subst h
      exact Tr.reconnOk p pos hg
    · simp at h
  | reconnFail =>
    simp only [step] at h
    split at h
    · next p hg =>
      simp only [Option.some.injEq] at h; subst h
      exact Tr.reconnFail p hg
    · simp at h
  | reconnTimeout =>
    simp only [step] at h
    split at h
    · next p hg =>
      simp only [Option.some.injEq] at h; subst h
      exact Tr.reconnTimeout p hg
    · simp at h
  | read n =>
    simp only [step] at h
    split at h
    · next hg =>
      simp only [Option.some.injEq, callRead] at h; subst h
      cases hf : s.failed
      · cases he : c.excessiveRead n
        · simpa [hf, he] using (Tr.read n hg hf he : Tr c s _ _)
        · simpa [hf, he] using (Tr.readExcess n hg hf he : Tr c s _ _)
      · simpa [hf] using (Tr.readFailed n hg hf : Tr c s _ _)
    · simp at h
  | seek f =>
    simp only [step] at h
    split at h
    · next hg =>
      simp only [Option.some.injEq, callSeek] at h; subst h
      cases hf : s.failed
      · simp only [Bool.false_eq_true, if_false]
        cases ha : c.absolute (S.tell s.st).1 f with
        | err k => simpa [hf] using (Tr.seekErr f k hg.1 hg.2 hf ha : Tr c s _ _)
        | panic => simpa [hf] using (Tr.seekPanic f hg.1 hg.2 hf ha : Tr c s _ _)
        | ok p =>
          dsimp only
          cases he : c.excessiveSeek (S.tell s.st).1 (c.normalize p)
          · simpa [hf] using (Tr.seek f p hg.1 hg.2 hf ha he : Tr c s _ _)
          · simpa [hf] using (Tr.seekExcess f p hg.1 hg.2 hf ha he : Tr c s _ _)
      · simpa [hf] using (Tr.seekFailed f hg.1 hg.2 hf : Tr c s _ _)
    · simp at h
  | cancel =>
    simp only [step, Option.some.injEq] at h; subst h
    exact Tr.cancel
  | drop =>
    simp only [step] at h
    split at h
    · next hg =>
      simp only [Option.some.injEq] at h; subst h
      exact Tr.drop hg
    · simp at h

/-- Induction over a history with one case per branch. -/
theorem Reach.inv {c : Cfg} {G : Sys S → Act → Prop} {s0 s : Sys S} {P : Sys S → Prop}
    (h : Reach c G s0 s) (h0 : P s0) (hs : ∀ s s' a, P s → G s a → Tr c s a s' → P s') : P s := by
  induction h with
  | refl => exact h0
  | step _ hg hst ih => exact hs _ _ _ ih hg (tr_of_step hst)

end SD
