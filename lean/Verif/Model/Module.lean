import Verif.Model.Digest

/-!
# `/repo/src/file_formats/module/mod.rs` (without `verify_*`, see `Model/Verifier.lean`)

The path is not modelled; every function takes the content found at the path. Functions with suffix `T` take one
content per `File::open`/`read`, in program order, so that a file that changes between opens can be described; the
unsuffixed versions are for a file that does not change.
-/

namespace Ksusig

/-- `Module` (`module/mod.rs:27-39`). -/
structure Module where
  raw : Bool
  fileLen : Nat
  sig : Option SigningBlock
  deriving DecidableEq, Repr

/-- `Module::new` (`module/mod.rs:45-53`). -/
def Module.new (file : Bytes) : Module := ⟨false, file.length, none⟩

/-- `Module::new_raw` (`module/mod.rs:58-63`). -/
def Module.newRaw (file : Bytes) : Module := { Module.new file with raw := true }

/-- `Module::find_eocd` (`module/mod.rs:248-251`). -/
def Module.findEocd (m : Module) (file : Bytes) : Res Eocd := Ksusig.findEocd file m.fileLen

/-- `Module::get_signing_block` (`module/mod.rs:73-99`). -/
def Module.getSigningBlockT (p : Profile) (m : Module) (f1 f2 : Bytes) : Res SigningBlock :=
  match m.sig with
  | some s => .ok s
  | none =>
    if m.raw then .err .moduleIsRaw
    else do
      let eocd ← m.findEocd f1
      SigningBlock.fromReader p f2 m.fileLen (m.fileLen - eocd.cdOffset.toNat)

def Module.getSigningBlock (p : Profile) (m : Module) (file : Bytes) : Res SigningBlock :=
  m.getSigningBlockT p file file

/-- The message test "Magic not found" / "Module is raw" (`module/mod.rs:284`, `signable.rs:390-393`). -/
def Err.isMissing : Err → Bool
  | .magicNotFound => true
  | .moduleIsRaw => true
  | _ => false

/-- `Module::get_offsets` (`module/mod.rs:258-301`). -/
def Module.getOffsetsT (p : Profile) (m : Module) (f1 f2 f3 : Bytes) : Res FileOffsets := do
  let eocd ← m.findEocd f1
  match m.getSigningBlockT p f2 f3 with
  | .ok sig =>
    let fileLen := if m.raw then m.fileLen + sig.fullSize else m.fileLen
    let stopCd := if m.raw then eocd.fileOffset + sig.fullSize else eocd.fileOffset
    .ok (FileOffsets.new sig.fileStart sig.fileEnd stopCd fileLen)
  | .err e =>
    if e.isMissing then .ok (FileOffsets.withoutSignature eocd.cdOffset.toNat eocd.fileOffset m.fileLen)
    else .err .corrupted
  | .panic => .panic

def Module.getOffsets (p : Profile) (m : Module) (file : Bytes) : Res FileOffsets := m.getOffsetsT p file file file

/-- `Module::digest` (`module/mod.rs:307-311`): the file is opened (`f0`) before the offsets are determined. -/
def Module.digestT (E : Env) (p : Profile) (m : Module) (f0 f1 f2 f3 : Bytes) (algo : Algo) : Res Bytes := do
  let o ← m.getOffsetsT p f1 f2 f3
  digestModule E p fullReads fullReads f0 o algo

def Module.digest (E : Env) (p : Profile) (m : Module) (file : Bytes) (algo : Algo) : Res Bytes :=
  m.digestT E p file file file file algo

/-- `u32::checked_sub` / `checked_add` with an `as u32` argument (`module/mod.rs:339,373`). -/
def checkedSub32 (a : UInt32) (n : Nat) : Option UInt32 :=
  if n % 2 ^ 32 ≤ a.toNat then some (UInt32.ofNat (a.toNat - n % 2 ^ 32)) else none

def checkedAdd32 (a : UInt32) (n : Nat) : Option UInt32 :=
  if a.toNat + n % 2 ^ 32 < 2 ^ 32 then some (UInt32.ofNat (a.toNat + n % 2 ^ 32)) else none

/-- `Module::get_raw_module` (`module/mod.rs:316-363`). -/
def Module.getRawModule (p : Profile) (m : Module) (file : Bytes) : Res Bytes :=
  if m.raw then .ok file
  else do
    let sig ← m.getSigningBlock p file
    let sizeSig ← usub p sig.fileEnd sig.fileStart
    let start ← Res.ofOption .invalidData (slice? file 0 sig.fileStart)
    let eocd ← m.findEocd file
    let cd ← Res.ofOption .invalidData (checkedSub32 eocd.cdOffset sizeSig)
    let ser := { eocd with cdOffset := cd }.toU8
    let stop ← usub p file.length ser.length
    let rest ← Res.ofOption .invalidData (slice? file sig.fileEnd stop)
    .ok (start ++ rest ++ ser)

/-- `Module::write_with_signature` (`module/mod.rs:368-404`): what has been written and how the call ended.
`io::copy` of a `take` stops at the end of the file; seeking to a position that is negative as an `i64` is an error. -/
def Module.writeWithSignature (p : Profile) (m : Module) (file : Bytes) : Bytes × Res Unit :=
  match (do
    let sig ← m.getSigningBlock p file
    let o ← m.getOffsets p file
    let eocd ← m.findEocd file
    let cd ← Res.ofOption .invalidData (checkedAdd32 eocd.cdOffset sig.fullSize)
    .ok (sig, o, { eocd with cdOffset := cd }.toU8) : Res (SigningBlock × FileOffsets × Bytes)) with
  | .err e => ([], .err e)
  | .panic => ([], .panic)
  | .ok (sig, o, ser) =>
    let out1 := file.take o.stopContent ++ sig.toU8
    match (do
      let seekEnd ← usub p o.startCd sig.fullSize
      let _ ← if seekEnd < 2 ^ 63 then .ok () else .err .io
      let a ← usub p o.stopEocd o.startCd
      let n ← usub p a ser.length
      .ok ((file.drop seekEnd).take n) : Res Bytes) with
    | .err e => (out1, .err e)
    | .panic => (out1, .panic)
    | .ok cd => (out1 ++ cd ++ ser, .ok ())

/-- `Module::sign_v2` (`module/mod.rs:410-458`): the new state of the module. -/
def Module.signV2 (E : Env) (p : Profile) (m : Module) (file : Bytes) (algo : Algo) (cert : Bytes)
    (key : PrivateKey) : Res Module := do
  let pubkey ← key.publicKeyDer E
  let digest ← m.digest E p file algo
  let sd := SignedDataV2.new (Digests.new [Digest.new algo digest]) (Certs.new [Cert.new cert]) (Attrs.new [])
  let toSign ← Res.ofOption .invalidData (sliceFrom? sd.toU8 4)
  let signature ← algo.sign E key toSign
  let signer := SignerV2.new sd (Sigs.new [Sig.new algo signature]) (PubKey.new pubkey)
  let block ← SigningBlock.newWithPadding p [Value.newV2 (SignersV2.new [signer])]
  let eocd ← m.findEocd file
  .ok { m with sig := some (block.offsetBy eocd.cdOffset.toNat) }

end Ksusig
