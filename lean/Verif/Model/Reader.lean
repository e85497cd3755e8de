import Verif.Model.Basic

/-!
# `MyReader` (`/repo/src/utils.rs`) and the loops that drive it
-/

namespace Ksusig

/-- `MyReader` (`utils.rs:5-10`). -/
structure Reader where
  data : Bytes
  pos : Nat
  deriving DecidableEq, Repr

/-- `MyReader::new` (`utils.rs:14-19`). -/
def Reader.new (d : Bytes) : Reader := ⟨d, 0⟩

/-- A function taking `&mut MyReader`: returns the value and the updated reader. -/
def P (α : Type) := Reader → Res (α × Reader)

namespace P

/-- Return without touching the reader. -/
def ret (a : α) : P α := fun r => .ok (a, r)

/-- Sequencing with `?`. -/
def andThen (p : P α) (f : α → P β) : P β := fun r => (p r).bind fun (a, r') => f a r'

instance : Monad P where
  pure := ret
  bind := andThen

/-- Return an error. -/
def fail (e : Err) : P α := fun _ => .err e

theorem bind_def (p : P α) (f : α → P β) (r : Reader) :
    (p >>= f) r = (p r).bind fun (a, r') => f a r' := rfl

@[simp] theorem pure_def (a : α) (r : Reader) : (pure a : P α) r = .ok (a, r) := rfl

/-- `get_to` (`utils.rs:39-57`). `checked_add` cannot fail on lengths below 2^63 and a failure would
be the same error class. -/
def getTo (n : Nat) : P Bytes := fun r =>
  match slice? r.data r.pos (r.pos + n) with
  | some d => .ok (d, ⟨r.data, r.pos + n⟩)
  | none => .err .outOfBounds

/-- `as_slice` (`utils.rs:62-67`): a fresh reader over the next `n` bytes. -/
def asSlice (n : Nat) : P Reader := do
  let d ← getTo n
  return ⟨d, 0⟩

/-- `read_u16`/`read_u32`/`read_u64` (`utils.rs:80-143`) with the result as a number. -/
def readLe (n : Nat) : P Nat := do
  let d ← getTo n
  return leNat d

/-- `read_size` (`utils.rs:72-75`). -/
def readSize : P Nat := readLe 4

/-- `read_u16` (`utils.rs:80-97`). -/
def readU16 : P UInt16 := do return UInt16.ofNat (← readLe 2)

/-- `read_u32` (`utils.rs:102-119`). -/
def readU32 : P UInt32 := do return UInt32.ofNat (← readLe 4)

/-- `read_u64` (`utils.rs:124-143`). -/
def readU64 : P UInt64 := do return UInt64.ofNat (← readLe 8)

/-- `read_size_u64` (`utils.rs:148-151`). -/
def readSizeU64 : P Nat := readLe 8

/-- `get_pos` (`utils.rs:27-29`). -/
def getPos : P Nat := fun r => .ok (r.pos, r)

/-- `len` (`utils.rs:22-24`). -/
def getLen : P Nat := fun r => .ok (r.data.length, r)

/-- Run a parser on another reader and drop that reader afterwards
(`let data = &mut data.as_slice(n)?; …`). -/
def on (sub : Reader) (p : P α) : P α := fun r =>
  match p sub with
  | .ok (a, _) => .ok (a, r)
  | .err e => .err e
  | .panic => .panic

/-- `while data.get_pos() < max { v.push(item(data)?) }`, on fuel. -/
def whileLt (item : P α) (max : Nat) : Nat → P (List α)
  | 0 => fun r => if r.pos < max then .err .fuel else .ok ([], r)
  | n + 1 => fun r =>
    if r.pos < max then
      (item r).bind fun (a, r') =>
        (whileLt item max n r').bind fun (as, r'') => .ok (a :: as, r'')
    else .ok ([], r)

/-- The loop with enough fuel: every iteration of the loops in the code consumes at least one byte, so
`data.len() + 1` iterations always suffice (proved in `Proofs/Total.lean`). -/
def loopTo (item : P α) (max : Nat) : P (List α) := fun r => whileLt item max (r.data.length + 1) r

/-- `for _ in 0..n { v.push(item(data)?) }`. -/
def repeatN (item : P α) : Nat → P (List α)
  | 0 => ret []
  | n + 1 => do
    let a ← item
    let as ← repeatN item n
    return a :: as

end P
end Ksusig
