import Verif.Spec.Middleware

/-! # Lemmas about default middleware -/

namespace SD

theorem run_defaults {σ : Type} (acts : List (MwAct σ)) : ∀ s : MwState σ,
    (s.run acts).defaults = s.defaults ++ added acts := by
  induction acts with
  | nil => intro s; simp [MwState.run, added]
  | cons a as ih =>
    intro s
    have := ih (s.step a)
    simp only [MwState.run, List.foldl_cons] at this ⊢
    rw [this]
    cases a <;> simp [MwState.step, added]

theorem run_other {σ : Type} {i : Nat} (acts : List (MwAct σ)) : ∀ s : MwState σ,
    (∀ a ∈ acts, a ≠ .create i ∧ ∀ ms, a ≠ .build i ms) → (s.run acts).clients i = s.clients i := by
  induction acts with
  | nil => intro s _; rfl
  | cons a as ih =>
    intro s h
    have := ih (s.step a) (fun b hb => h b (by simp [hb]))
    simp only [MwState.run, List.foldl_cons] at this ⊢
    rw [this]
    have ha := h a (by simp)
    cases a with
    | add m => rfl
    | create j =>
      have : i ≠ j := fun e => ha.1 (by rw [e])
      simp [MwState.step, this]
    | build j ms =>
      have : i ≠ j := fun e => ha.2 ms (by rw [e])
      simp [MwState.step, this]

theorem sendThrough_append {σ : Type} (xs ys : List (Middleware σ)) (base : Send σ) :
    sendThrough (xs ++ ys) base = sendThrough xs (sendThrough ys base) := by
  induction xs with
  | nil => rfl
  | cons x xs ih => simp only [List.cons_append, sendThrough, ih]

/-- A request of a client with watching middlewares is noted by each of them, in order, and
then sent. -/
theorem sendThrough_watch {σ : Type} (ts : List Nat) (base : Send (Noting σ)) (r : HttpReq) :
    ∀ w, sendThrough (ts.map watch) base r w =
      base r { w with notes := w.notes ++ ts.map fun t => (t, r) } := by
  induction ts with
  | nil => intro w; simp [sendThrough]
  | cons t ts ih =>
    intro w
    simp only [List.map_cons, sendThrough, watch]
    rw [ih]
    simp

theorem sendThrough_onRest {σ : Type} (ts : List Nat) (base : Send σ) (r : HttpReq) (w : Noting σ) :
    sendThrough (ts.map watch) (onRest base) r w =
      ((base r w.rest).1,
        { notes := w.notes ++ ts.map (fun t => (t, r)), rest := (base r w.rest).2 }) := by
  rw [sendThrough_watch]; rfl

theorem fold_onRest {σ : Type} (ts : List Nat) (base : Send σ) (rs : List HttpReq) : ∀ w : Noting σ,
    rs.foldl (fun w r => (sendThrough (ts.map watch) (onRest base) r w).2) w =
      { notes := w.notes ++ rs.flatMap fun r => ts.map fun t => (t, r)
        rest := rs.foldl (fun w r => (base r w).2) w.rest } := by
  induction rs with
  | nil => intro w; simp
  | cons r rs ih =>
    intro w
    rw [List.foldl_cons, ih, sendThrough_onRest]
    simp

theorem calls_onRest {σ : Type} (ts : List Nat) (base : Send σ) (calls : List HttpCall) :
    ∀ (h : HttpStream) (w : Noting σ),
    httpCalls (sendThrough (ts.map watch) (onRest base)) h w calls =
      ((httpCalls base h w.rest calls).1, (httpCalls base h w.rest calls).2.1,
        (httpCalls base h w.rest calls).2.2.1,
        { notes := w.notes ++
            (httpCalls base h w.rest calls).2.1.flatMap fun r => ts.map fun t => (t, r)
          rest := (httpCalls base h w.rest calls).2.2.2 }) := by
  induction calls with
  | nil => intro h w; simp [httpCalls]
  | cons call calls ih =>
    intro h w
    have e : call.run (sendThrough (ts.map watch) (onRest base)) h w =
        ((call.run base h w.rest).1,
          { notes := w.notes ++ (call.run base h w.rest).1.reqs.flatMap fun r => ts.map fun t => (t, r)
            rest := (call.run base h w.rest).2 }) := by
      have e1 : (fun r => (sendThrough (ts.map watch) (onRest base) r w).1) =
          fun r => (base r w.rest).1 := by
        funext r
        rw [sendThrough_onRest]
      cases call <;> simp only [HttpCall.run] <;> rw [e1, fold_onRest]
    simp only [httpCalls]
    rw [e, ih]
    simp [List.append_assoc]

end SD
