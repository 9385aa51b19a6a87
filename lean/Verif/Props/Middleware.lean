import Verif.Proof.Middleware

/-!
# C86: default middleware sees every request of the streams made after it was added

`Settings::add_default_middleware` is global.  A watching middleware notes each request
under its name and passes it on unchanged.
-/

namespace SD

/-- A process that adds watchers 1 and 2, makes client 0, adds watcher 3, makes client 1 and a
client of its own. -/
def mwActs : List (MwAct (Noting Nat)) :=
  [.add (watch 1), .add (watch 2), .create 0, .add (watch 3), .create 1, .build 2 [watch 9]]

theorem mwActs_made : MadeAfter 0 mwActs [.add (watch 1), .add (watch 2)] := by
  refine ⟨[.add (watch 3), .create 1, .build 2 [watch 9]], rfl, ?_⟩
  intro a ha
  simp only [List.mem_cons, List.not_mem_nil, or_false] at ha
  rcases ha with rfl | rfl | rfl <;> simp

/-- A server that counts and answers every request. -/
def counting : Send Nat := fun r n =>
  (some { status := if r = .get then 200 else 206
          header := fun h => if h = acceptRanges then some "bytes".toList else none
          body := [1, 2, 3] }, n + 1)

/-- **C86.** A client made with the default middleware has what was added before, in that
order; what is added later, and other clients, do not change it. -/
theorem C86_client_has_what_was_added {σ : Type} (acts before : List (MwAct σ)) (i : Nat)
    (h : MadeAfter i acts before) : ((MwState.start σ).run acts).clients i = some (added before) := by
  obtain ⟨after, rfl, ha⟩ := h
  have e : (MwState.start σ).run (before ++ .create i :: after) =
      (((MwState.start σ).run before).step (.create i)).run after := by
    simp [MwState.run]
  rw [e, run_other after _ ha]
  simp [MwState.step, run_defaults, MwState.start]

example : MadeAfter 0 mwActs [.add (watch 1), .add (watch 2)] ∧
    added [.add (watch 1), .add (watch 2 : Middleware (Noting Nat))] = [watch 1, watch 2] ∧
    ((MwState.start _).run mwActs).clients 1 = some [watch 1, watch 2, watch 3] :=
  ⟨mwActs_made, rfl, rfl⟩

/-- **C86.** Each request that a stream makes in its life (for the resource, for ranges, when
reconnecting) is seen once by every middleware that was added before the stream's client was
made, in the order in which they were added, and by none that was added later. -/
theorem C86_every_request_is_seen {σ : Type} (mime : Text → Option (Text × Text)) (base : Send σ)
    (acts before : List (MwAct (Noting σ))) (i : Nat) (h : MadeAfter i acts before) (ts : List Nat)
    (hts : added before = ts.map watch) (calls : List HttpCall) (w : Noting σ) :
    ∃ ms, ((MwState.start _).run acts).clients i = some ms ∧
      (httpLife mime (sendThrough ms (onRest base)) w calls).2.2.notes =
        w.notes ++ (httpLife mime (sendThrough ms (onRest base)) w calls).2.1.flatMap
          fun r => ts.map fun t => (t, r) := by
  refine ⟨added before, C86_client_has_what_was_added acts before i h, ?_⟩
  rw [hts]
  have e1 : (fun r => (sendThrough (ts.map watch) (onRest base) r w).1) =
      fun r => (base r w.rest).1 := by
    funext r
    rw [sendThrough_onRest]
  simp only [httpLife]
  rw [e1]
  split
  · simp [sendThrough_onRest]
  · rw [calls_onRest, sendThrough_onRest]
    simp [List.append_assoc]

/-- Three requests, each seen by 1 and 2, and not by 3. -/
example : added [.add (watch 1), .add (watch 2 : Middleware (Noting Nat))] = [1, 2].map watch ∧
    (httpLife (fun _ => none) (sendThrough [watch 1, watch 2] (onRest counting)) { notes := [], rest := 0 }
      [.seek 2 (some 9), .reconnect 4]).2.2.notes =
      [(1, .get), (2, .get), (1, .range "bytes=2-8".toList), (2, .range "bytes=2-8".toList),
        (1, .range "bytes=4-".toList), (2, .range "bytes=4-".toList)] :=
  ⟨rfl, by decide +kernel⟩

/-- **C86.** Middlewares that only watch change nothing for the stream: it makes the same
requests and gets the same results as without them. -/
theorem C86_watching_changes_nothing {σ : Type} (mime : Text → Option (Text × Text)) (base : Send σ)
    (ts : List Nat) (calls : List HttpCall) (w : Noting σ) :
    let with_ := httpLife mime (sendThrough (ts.map watch) (onRest base)) w calls
    let without := httpLife mime base w.rest calls
    with_.1 = without.1 ∧ with_.2.1 = without.2.1 ∧ with_.2.2.rest = without.2.2 := by
  have e1 : (fun r => (sendThrough (ts.map watch) (onRest base) r w).1) =
      fun r => (base r w.rest).1 := by
    funext r
    rw [sendThrough_onRest]
  simp only [httpLife]
  rw [e1]
  split
  · simp [sendThrough_onRest]
  · rw [calls_onRest, sendThrough_onRest]
    simp

example : (httpLife (fun _ => none) (sendThrough [watch 1, watch 2] (onRest counting))
      { notes := [], rest := 0 } [.seek 2 (some 9), .reconnect 4]).2.2.rest = 3 := by decide +kernel

/-- **C86.** A middleware that answers itself (a cache, say) takes the place of the server: the
stream goes on as if what was added after it did not exist and the server were it.  What was
added before it sees every request. -/
theorem C86_first_added_decides {σ : Type} (mime : Text → Option (Text × Text)) (base own : Send (Noting σ))
    (acts before : List (MwAct (Noting σ))) (i : Nat) (h : MadeAfter i acts before) (ts : List Nat)
    (m : Middleware (Noting σ)) (more : List (Middleware (Noting σ)))
    (hts : added before = ts.map watch ++ m :: more) (hm : ∀ next r w, m next r w = own r w)
    (calls : List HttpCall) (w : Noting σ) :
    ∃ ms, ((MwState.start _).run acts).clients i = some ms ∧
      (∀ r w, sendThrough ms base r w = own r { w with notes := w.notes ++ ts.map fun t => (t, r) }) ∧
      httpLife mime (sendThrough ms base) w calls = httpLife mime (sendThrough (ts.map watch) own) w calls := by
  refine ⟨added before, C86_client_has_what_was_added acts before i h, ?_⟩
  have e : sendThrough (added before) base = sendThrough (ts.map watch) own := by
    rw [hts, sendThrough_append]
    congr 1
    funext r w
    exact hm _ r w
  rw [e]
  exact ⟨fun r w => sendThrough_watch ts own r w, rfl⟩

/-- A middleware that answers every request itself, between one that watches and one that never
gets to see anything; the server is not asked either. -/
example : ∃ (own : Send (Noting Nat)) (m : Middleware (Noting Nat)),
    MadeAfter 0 [.add (watch 1), .add m, .add (watch 2), .create 0] [.add (watch 1), .add m, .add (watch 2)] ∧
      added [.add (watch 1), .add m, .add (watch 2)] = [1].map watch ++ m :: [watch 2] ∧
      (∀ next r w, m next r w = own r w) ∧
      (httpLife (fun _ => none) (sendThrough [watch 1, m, watch 2] (onRest counting)) { notes := [], rest := 0 }
        [.seek 2 (some 9)]).2.2.notes = [(1, .get), (1, .range "bytes=2-8".toList)] ∧
      (httpLife (fun _ => none) (sendThrough [watch 1, m, watch 2] (onRest counting)) { notes := [], rest := 0 }
        [.seek 2 (some 9)]).2.2.rest = 0 := by
  let own : Send (Noting Nat) := fun r w => ((counting r 0).1, w)
  exact ⟨own, fun _ => own, ⟨[], rfl, nofun⟩, rfl, fun _ _ _ => rfl, by decide +kernel, by decide +kernel⟩

end SD
