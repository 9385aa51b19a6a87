import Verif.Model.Settings

/-! # Property C55: settings -/

namespace SD

variable {F G : Type}

/-- A call of a settings method. -/
inductive SetCall (F G : Type) where
  | prefetchBytes (n : Nat)
  | batchWriteSize (n : { n : Nat // n ≠ 0 })
  | retryTimeout (d : Nat)
  | cancelOnDrop (b : Bool)
  | onProgress (f : F)
  | onReconnect (g : G)

/-- What the call does. -/
def SetCall.apply (s : Settings F G) : SetCall F G → Settings F G
  | .prefetchBytes n => s.setPrefetchBytes n
  | .batchWriteSize n => s.setBatchWriteSize n
  | .retryTimeout d => s.setRetryTimeout d
  | .cancelOnDrop b => s.setCancelOnDrop b
  | .onProgress f => s.setOnProgress f
  | .onReconnect g => s.setOnReconnect g

/-- The last of the calls for which `f` has a value, or a default. -/
def lastSet {α β : Type} (f : α → Option β) (d : β) : List α → β
  | [] => d
  | x :: l => lastSet f ((f x).getD d) l

/-- C55: after any sequence of calls each setting has the value of the last call of its own
method, or the documented default if there was none. -/
theorem C55_last_call_wins (calls : List (SetCall F G)) :
    calls.foldl SetCall.apply Settings.default = {
      prefetchBytes := lastSet (fun | .prefetchBytes n => some n | _ => none) 262144 calls
      batchWriteSize := lastSet (fun | .batchWriteSize n => some n.val | _ => none) 4096 calls
      retryTimeout := lastSet (fun | .retryTimeout d => some d | _ => none) 5000 calls
      cancelOnDrop := lastSet (fun | .cancelOnDrop b => some b | _ => none) true calls
      onProgress := lastSet (fun | .onProgress f => some (some f) | _ => none) none calls
      onReconnect := lastSet (fun | .onReconnect g => some (some g) | _ => none) none calls } := by
  have key : ∀ (calls : List (SetCall F G)) (s : Settings F G), calls.foldl SetCall.apply s = {
      prefetchBytes := lastSet (fun | .prefetchBytes n => some n | _ => none) s.prefetchBytes calls
      batchWriteSize := lastSet (fun | .batchWriteSize n => some n.val | _ => none) s.batchWriteSize calls
      retryTimeout := lastSet (fun | .retryTimeout d => some d | _ => none) s.retryTimeout calls
      cancelOnDrop := lastSet (fun | .cancelOnDrop b => some b | _ => none) s.cancelOnDrop calls
      onProgress := lastSet (fun | .onProgress f => some (some f) | _ => none) s.onProgress calls
      onReconnect := lastSet (fun | .onReconnect g => some (some g) | _ => none) s.onReconnect calls } := by
    intro calls
    induction calls with
    | nil => intro s; rfl
    | cons c l ih => intro s; rw [List.foldl_cons, ih]; cases c <;> rfl
  exact key calls _

/-- C55: after any sequence of calls the getters return what was set last, or the documented
default. -/
theorem C55_getters (calls : List (SetCall F G)) :
    (calls.foldl SetCall.apply Settings.default).getPrefetchBytes =
        lastSet (fun | .prefetchBytes n => some n | _ => none) 262144 calls ∧
      (calls.foldl SetCall.apply Settings.default).getWriteBatchSize =
        lastSet (fun | .batchWriteSize n => some n.val | _ => none) 4096 calls := by
  rw [C55_last_call_wins]; exact ⟨rfl, rfl⟩

/-- C55: the batch size is never zero. -/
theorem C55_batch_size_positive (calls : List (SetCall F G)) :
    (calls.foldl SetCall.apply Settings.default).getWriteBatchSize ≠ 0 := by
  have key : ∀ (calls : List (SetCall F G)) (s : Settings F G), s.batchWriteSize ≠ 0 →
      (calls.foldl SetCall.apply s).batchWriteSize ≠ 0 := by
    intro calls
    induction calls with
    | nil => intro s h; exact h
    | cons c l ih =>
      intro s h
      rw [List.foldl_cons]
      apply ih
      cases c with
      | batchWriteSize n => exact n.2
      | _ => exact h
  exact key calls _ (by simp [Settings.default])

example : ([SetCall.prefetchBytes 1, .batchWriteSize ⟨7, by decide⟩, .prefetchBytes 2].foldl SetCall.apply
    (Settings.default : Settings Unit Unit)).getPrefetchBytes = 2 := rfl

end SD
