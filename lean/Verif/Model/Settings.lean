/-!
# Model of the settings (`settings.rs`)

Callbacks are elements of types `F` and `G`; durations are numbers of milliseconds.
-/

namespace SD

/-- settings.rs 51-60, `Settings`. -/
structure Settings (F G : Type) where
  prefetchBytes : Nat
  batchWriteSize : Nat
  retryTimeout : Nat
  cancelOnDrop : Bool
  onProgress : Option F
  onReconnect : Option G

/-- settings.rs 62-73, `Settings::default`. -/
def Settings.default {F G : Type} : Settings F G :=
  { prefetchBytes := 256 * 1024, batchWriteSize := 4096, retryTimeout := 5000, cancelOnDrop := true
    onProgress := none, onReconnect := none }

variable {F G : Type}

/-- settings.rs 82-87. -/
def Settings.setPrefetchBytes (s : Settings F G) (n : Nat) : Settings F G := { s with prefetchBytes := n }
/-- settings.rs 95-100; the argument is a `NonZeroUsize`. -/
def Settings.setBatchWriteSize (s : Settings F G) (n : { n : Nat // n ≠ 0 }) : Settings F G :=
  { s with batchWriteSize := n.val }
/-- settings.rs 111-116. -/
def Settings.setRetryTimeout (s : Settings F G) (d : Nat) : Settings F G := { s with retryTimeout := d }
/-- settings.rs 124-129. -/
def Settings.setCancelOnDrop (s : Settings F G) (b : Bool) : Settings F G := { s with cancelOnDrop := b }
/-- settings.rs 149-155. -/
def Settings.setOnProgress (s : Settings F G) (f : F) : Settings F G := { s with onProgress := some f }
/-- settings.rs 160-166. -/
def Settings.setOnReconnect (s : Settings F G) (g : G) : Settings F G := { s with onReconnect := some g }
/-- settings.rs 169-171. -/
def Settings.getPrefetchBytes (s : Settings F G) : Nat := s.prefetchBytes
/-- settings.rs 174-176. -/
def Settings.getWriteBatchSize (s : Settings F G) : Nat := s.batchWriteSize

end SD
