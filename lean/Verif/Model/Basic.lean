/-!
# Basic vocabulary of the model: bytes, results, build profiles, little-endian integers, slices

Models the Rust primitives used throughout `/repo/src`: `Vec<u8>`/`&[u8]`, `Result`, panics,
`usize` subtraction, `to_le_bytes` / `from_le_bytes`, `slice::get(a..b)`.
-/

namespace Ksusig

/-- `Vec<u8>` / `&[u8]`. -/
abbrev Bytes := List UInt8

/-- Error classes. The Rust code uses `String`s and `io::Error`s; only their identity as far as the code
inspects it (`"Magic not found"`, `"Module is raw"`: `/repo/src/file_formats/module/mod.rs:284`,
`/repo/src/signable.rs:390-393`) matters, the other constructors only name the failing check. -/
inductive Err where
  /-- `MyReader` read past the end (`utils.rs:50,88,110,132`). -/
  | outOfBounds
  /-- pair larger than `MAX_PAIR_SIZE` (`signing_block/mod.rs:142`). -/
  | pairTooLarge
  /-- pair smaller than its id (`signing_block/mod.rs:153`). -/
  | pairTooSmall
  /-- attribute smaller than its id (`common.rs:444`). -/
  | invalidSize
  /-- section name is not UTF-8 (`elf_section_info.rs:60`). -/
  | invalidUtf8
  /-- data shorter than an empty block (`signing_block/mod.rs:491,603`). -/
  | tooShort
  /-- any message containing "Magic not found" (`signing_block/mod.rs:480,508,665`). -/
  | magicNotFound
  /-- start and end size fields differ (`signing_block/mod.rs:539`). -/
  | sizeMismatch
  /-- size field below 24 (`signing_block/mod.rs:549`). -/
  | blockTooSmall
  /-- size field inconsistent with the data (`signing_block/mod.rs:562`). -/
  | lengthMismatch
  /-- size field above `MAX_SIGNING_BLOCK_SIZE` (`signing_block/mod.rs:235,313,398,635`). -/
  | blockTooLarge
  /-- size field above the file length (`signing_block/mod.rs:406`). -/
  | blockExceedsFile
  /-- block would start before the data (`signing_block/mod.rs:423,645,654`). -/
  | beyondData
  /-- region too small for a block (`signing_block/mod.rs:361`). -/
  | fileTooSmall
  /-- `read_exact` hit the end of the file. -/
  | unexpectedEof
  /-- padding block already present (`signing_block/mod.rs:278`). -/
  | paddingExists
  /-- no room for a padding block (`signing_block/mod.rs:292`). -/
  | paddingTooLow
  /-- file shorter than 22 bytes (`zip.rs:70`). -/
  | notZip
  /-- no end record (`zip.rs:114`). -/
  | eocdNotFound
  /-- an end record candidate that does not parse (`zip.rs:129-190`). -/
  | eocdInvalid
  /-- "Module is raw" (`module/mod.rs:78-81`). -/
  | moduleIsRaw
  /-- "Signing block corrupted or unreadable" (`module/mod.rs:294-297`). -/
  | corrupted
  /-- other `InvalidData` errors (`module/mod.rs`, `signable.rs`, `module/digest.rs`). -/
  | invalidData
  /-- "Cannot sign file with corrupted signing block" (`signable.rs:350`). -/
  | refuseCorrupted
  /-- algorithm and key type mismatch (`algorithms.rs:172`). -/
  | keyMismatch
  /-- public key cannot be encoded (`algorithms.rs:199,207`). -/
  | pubKey
  /-- system clock before the epoch (`signer.rs`, `source_stamp.rs:274`). -/
  | clock
  /-- nothing configured to sign with (`signer.rs`). -/
  | noSigner
  /-- unknown file format (`signable.rs:265`). -/
  | unknownFormat
  /-- ELF-level errors (`elf/mod.rs`). -/
  | elf
  /-- key or certificate material could not be loaded (`keystore.rs`). -/
  | keystore
  /-- verification verdicts of the command line (`cli/verify.rs`). -/
  | verifyFailed
  /-- a file cannot be opened or created (`cli`). -/
  | io
  /-- model artefact: loop fuel exhausted (proved unreachable). -/
  | fuel
  deriving DecidableEq, Repr

/-- Outcome of a Rust call: `Ok`, `Err`, or a panic. -/
inductive Res (α : Type u) where
  | ok (a : α)
  | err (e : Err)
  | panic
  deriving Repr

instance [DecidableEq α] : DecidableEq (Res α)
  | .ok a, .ok b => if h : a = b then isTrue (by rw [h]) else isFalse (by intro h'; cases h'; exact h rfl)
  | .err a, .err b => if h : a = b then isTrue (by rw [h]) else isFalse (by intro h'; cases h'; exact h rfl)
  | .panic, .panic => isTrue rfl
  | .ok _, .err _ => isFalse (by intro h; cases h)
  | .ok _, .panic => isFalse (by intro h; cases h)
  | .err _, .ok _ => isFalse (by intro h; cases h)
  | .err _, .panic => isFalse (by intro h; cases h)
  | .panic, .ok _ => isFalse (by intro h; cases h)
  | .panic, .err _ => isFalse (by intro h; cases h)

namespace Res

/-- The `?` operator; a panic propagates too. -/
def bind (x : Res α) (f : α → Res β) : Res β :=
  match x with
  | ok a => f a
  | err e => err e
  | panic => panic

/-- `map_err`. -/
def mapErr (x : Res α) (f : Err → Err) : Res α :=
  match x with
  | ok a => ok a
  | err e => err (f e)
  | panic => panic

instance : Monad Res where
  pure := ok
  bind := bind

@[simp] theorem bind_ok (a : α) (f : α → Res β) : (ok a : Res α).bind f = f a := rfl
@[simp] theorem bind_err (e : Err) (f : α → Res β) : (err e : Res α).bind f = err e := rfl
@[simp] theorem bind_panic (f : α → Res β) : (panic : Res α).bind f = panic := rfl
@[simp] theorem ok_bind (a : α) (f : α → Res β) : ((ok a : Res α) >>= f) = f a := rfl
@[simp] theorem err_bind (e : Err) (f : α → Res β) : ((err e : Res α) >>= f) = err e := rfl
@[simp] theorem panic_bind (f : α → Res β) : ((panic : Res α) >>= f) = panic := rfl
@[simp] theorem pure_eq (a : α) : (pure a : Res α) = ok a := rfl
@[simp] theorem mapErr_ok (a : α) (f : Err → Err) : (ok a : Res α).mapErr f = ok a := rfl
@[simp] theorem mapErr_err (e : Err) (f : Err → Err) : (err e : Res α).mapErr f = err (f e) := rfl
@[simp] theorem mapErr_panic (f : Err → Err) : (panic : Res α).mapErr f = panic := rfl

theorem bind_eq_ok {x : Res α} {f : α → Res β} {b : β} :
    (x >>= f) = ok b ↔ ∃ a, x = ok a ∧ f a = ok b := by
  cases x <;> simp

/-- `Result::is_ok`. -/
def isOk : Res α → Bool
  | ok _ => true
  | _ => false

theorem exists_of_isOk {x : Res α} (h : x.isOk = true) : ∃ a, x = ok a := by
  cases x <;> simp_all [isOk]

/-- `Option::ok_or`. -/
def ofOption (e : Err) : Option α → Res α
  | some a => ok a
  | none => err e

@[simp] theorem ofOption_some (e : Err) (a : α) : ofOption e (some a) = ok a := rfl
@[simp] theorem ofOption_none (e : Err) : (ofOption e none : Res α) = err e := rfl

end Res

/-- Cargo build profile: `dev` has overflow checks and `debug_assert`, `release` has neither. -/
inductive Profile where
  | dev
  | release
  deriving DecidableEq, Repr

/-- Unchecked `usize` subtraction `a - b` (64-bit). -/
def usub (p : Profile) (a b : Nat) : Res Nat :=
  if b ≤ a then .ok (a - b)
  else match p with
    | .dev => .panic
    | .release => .ok (2 ^ 64 + a - b)

/-- Unchecked `usize` addition `a + b` (64-bit). -/
def uadd (p : Profile) (a b : Nat) : Res Nat :=
  if a + b < 2 ^ 64 then .ok (a + b)
  else match p with
    | .dev => .panic
    | .release => .ok ((a + b) % 2 ^ 64)

/-- `debug_assert!(c)`. -/
def debugAssert (p : Profile) (c : Bool) : Res Unit :=
  match p, c with
  | .dev, false => .panic
  | _, _ => .ok ()

/-- `to_le_bytes` of an `n`-byte unsigned integer; for larger `x` this is `(x as uN).to_le_bytes()`. -/
def leBytes : Nat → Nat → Bytes
  | 0, _ => []
  | n + 1, x => UInt8.ofNat x :: leBytes n (x / 256)

/-- `from_le_bytes`. -/
def leNat : Bytes → Nat
  | [] => 0
  | b :: bs => b.toNat + 256 * leNat bs

/-- Rust's `slice.get(a..b)`. -/
def slice? (d : Bytes) (a b : Nat) : Option Bytes :=
  if a ≤ b ∧ b ≤ d.length then some ((d.drop a).take (b - a)) else none

/-- Rust's `slice.get(a..)`. -/
def sliceFrom? (d : Bytes) (a : Nat) : Option Bytes :=
  if a ≤ d.length then some (d.drop a) else none

/-- The recurring `size.checked_sub(content.len()).map_or_else(Vec::new, |n| vec![0; n])`
(e.g. `common.rs:60-65`): truncated subtraction gives the empty vector when the content is larger. -/
def zeroPad (size : Nat) (content : Bytes) : Bytes :=
  List.replicate (size - content.length) 0

end Ksusig
