import Verif.Model.SigningBlock

/-!
# `/repo/src/signer.rs` and the signer half of `/repo/src/signing_block/source_stamp.rs`

The clock is an argument: `none` stands for a system time before the epoch, `some t` for `t` whole seconds after it.
`clone_private_key` (`signer.rs:450-465`) is the identity: re-encoding and decoding a valid scalar is assumed to succeed
and to give the same key.
-/

namespace Ksusig

/-- `ModuleSignerConfig` (`signer.rs:21-31`). -/
structure SignerConfig where
  key : PrivateKey
  cert : Bytes
  algo : Algo
  chain : List Bytes
  deriving DecidableEq, Repr

/-- `ModuleSignerConfig::new` (`signer.rs:34-41`). -/
def SignerConfig.new (key : PrivateKey) (cert : Bytes) (algo : Algo) : SignerConfig := ⟨key, cert, algo, []⟩

/-- `ModuleSignerConfig::with_cert_chain` (`signer.rs:44-56`). -/
def SignerConfig.withCertChain (key : PrivateKey) (cert : Bytes) (algo : Algo) (chain : List Bytes) : SignerConfig :=
  ⟨key, cert, algo, chain⟩

/-! ## V2 -/

/-- `V2Signer::sign` (`signer.rs:92-134`). -/
def v2Sign (E : Env) (c : SignerConfig) (digests : Digests) : Res SchemeV2 := do
  let certs := Certs.new ([Cert.new c.cert] ++ c.chain.map Cert.new)
  let sd := SignedDataV2.new digests certs (Attrs.new [])
  let toSign ← Res.ofOption .invalidData (sliceFrom? sd.toU8 4)
  let signature ← c.algo.sign E c.key toSign
  let sigs := Sigs.new [Sig.new c.algo signature]
  let pk ← c.key.publicKeyDer E
  .ok (SchemeV2.new (SignersV2.new [SignerV2.new sd sigs (PubKey.new pk)]))

/-- `V2Signer::sign_with_digests` (`signer.rs:143-153`). -/
def v2SignWithDigests (E : Env) (c : SignerConfig) (pairs : List (Algo × Bytes)) : Res SchemeV2 :=
  v2Sign E c (Digests.new (pairs.map fun x => Digest.new x.1 x.2))

/-! ## Source stamp -/

/-- The additional attributes of a stamp (`signer.rs:190-206`). -/
def stampAttrs (timestamp : Bool) (clock : Option UInt64) : Res Attrs := do
  if timestamp then
    let t ← Res.ofOption .clock clock
    let bytes := leBytes 8 t.toNat
    .ok (Attrs.new [⟨4 + bytes.length, stampTimeAttrId, bytes⟩])
  else .ok (Attrs.new [])

/-- `SourceStampSigner::sign` of `signer.rs` (`signer.rs:185-236`). -/
def stampSign (E : Env) (c : SignerConfig) (timestamp : Bool) (clock : Option UInt64) (digests : Digests) :
    Res SourceStamp := do
  let certs := Certs.new [Cert.new c.cert]
  let attrs ← stampAttrs timestamp clock
  let sd := SignedDataStamp.new digests certs attrs
  let toSign ← Res.ofOption .invalidData (sliceFrom? sd.toU8 4)
  let signature ← c.algo.sign E c.key toSign
  let sigs := Sigs.new [Sig.new c.algo signature]
  let pk ← c.key.publicKeyDer E
  .ok (SourceStamp.new (StampBlock.new sd sigs (PubKey.new pk)))

/-- `SourceStampSigner::sign_with_digests` of `signer.rs` (`signer.rs:242-252`). -/
def stampSignWithDigests (E : Env) (c : SignerConfig) (timestamp : Bool) (clock : Option UInt64)
    (pairs : List (Algo × Bytes)) : Res SourceStamp :=
  stampSign E c timestamp clock (Digests.new (pairs.map fun x => Digest.new x.1 x.2))

/-- `SourceStampSignerConfig` (`source_stamp.rs:209-218`). -/
structure StampConfig where
  key : PrivateKey
  cert : Bytes
  algo : Algo
  timestamp : Bool
  deriving DecidableEq, Repr

/-- `SourceStampSignerBuilder::new(..).build()` (`source_stamp.rs:361-386`): the timestamp is on by default. -/
def StampConfig.build (key : PrivateKey) (cert : Bytes) (algo : Algo) : StampConfig := ⟨key, cert, algo, true⟩

/-- `SourceStampSignerBuilder::timestamp_enabled` (`source_stamp.rs:371-374`). -/
def StampConfig.timestampEnabled (c : StampConfig) (b : Bool) : StampConfig := { c with timestamp := b }

/-- `Vec::resize(n, 0)`. -/
def resizeZero (d : Bytes) (n : Nat) : Bytes := d.take n ++ List.replicate (n - d.length) 0

/-- `SourceStampSigner::sign` of `source_stamp.rs` (`source_stamp.rs:262-319`). -/
def stampSign' (E : Env) (c : StampConfig) (clock : Option UInt64) (digests : Digests) : Res SourceStamp := do
  let certs := Certs.new [Cert.new c.cert]
  let attrs ←
    if c.timestamp then do
      let t ← Res.ofOption .clock clock
      let bytes := resizeZero (leBytes 8 t.toNat) 8
      Res.ok [(⟨4 + bytes.length, stampTimeAttrId, bytes⟩ : Attr)]
    else Res.ok []
  let sd := SignedDataStamp.new digests certs (Attrs.new attrs)
  let toSign ← Res.ofOption .invalidData (sliceFrom? sd.toU8 4)
  let signature ← c.algo.sign E c.key toSign
  let sigs := Sigs.new [Sig.new c.algo signature]
  let pk ← c.key.publicKeyDer E
  .ok (SourceStamp.new (StampBlock.new sd sigs (PubKey.new pk)))

/-- `SourceStampSigner::sign_with_digests` of `source_stamp.rs` (`source_stamp.rs:333-343`). -/
def stampSignWithDigests' (E : Env) (c : StampConfig) (clock : Option UInt64) (pairs : List (Algo × Bytes)) :
    Res SourceStamp :=
  stampSign' E c clock (Digests.new (pairs.map fun x => Digest.new x.1 x.2))

/-! ## `ModuleSigner` -/

/-- `ModuleSigner` (`signer.rs:256-265`). -/
structure ModuleSigner where
  v2 : Option SignerConfig
  stamp : Option SignerConfig
  timestamp : Bool
  padding : Bool
  deriving DecidableEq, Repr

/-- `ModuleSigner::v2_only` (`signer.rs:269-276`). -/
def ModuleSigner.v2Only (c : SignerConfig) : ModuleSigner := ⟨some c, none, true, true⟩

/-- `ModuleSigner::with_source_stamp` (`signer.rs:279-289`). -/
def ModuleSigner.withSourceStamp (v2 stamp : SignerConfig) : ModuleSigner := ⟨some v2, some stamp, true, true⟩

/-- `ModuleSigner::stamp_only` (`signer.rs:292-299`). -/
def ModuleSigner.stampOnly (stamp : SignerConfig) : ModuleSigner := ⟨none, some stamp, true, true⟩

/-- `ModuleSigner::timestamp_enabled` (`signer.rs:302-305`). -/
def ModuleSigner.timestampEnabled (s : ModuleSigner) (b : Bool) : ModuleSigner := { s with timestamp := b }

/-- `ModuleSigner::padding_enabled` (`signer.rs:311-314`). -/
def ModuleSigner.paddingEnabled (s : ModuleSigner) (b : Bool) : ModuleSigner := { s with padding := b }

/-- `ModuleSigner::required_algorithms` (`signer.rs:320-331`). -/
def ModuleSigner.requiredAlgorithms (s : ModuleSigner) : List Algo :=
  let algos := match s.v2 with
    | some c => [c.algo]
    | none => []
  match s.stamp with
  | some c => if algos.contains c.algo then algos else algos ++ [c.algo]
  | none => algos

/-- The V2 part of `ModuleSigner::sign` (`signer.rs:347-357`). -/
def ModuleSigner.signV2Part (E : Env) (s : ModuleSigner) (digests : Digests) : Res (List Value) :=
  match s.v2 with
  | some c => do
    let b ← v2Sign E c digests
    .ok [.v2 b]
  | none => .ok []

/-- The stamp part of `ModuleSigner::sign` (`signer.rs:360-372`). -/
def ModuleSigner.signStampPart (E : Env) (clock : Option UInt64) (s : ModuleSigner) (digests : Digests) :
    Res (List Value) :=
  match s.stamp with
  | some c => do
    let b ← stampSign E c s.timestamp clock digests
    .ok [.stamp b]
  | none => .ok []

/-- The choice of the block constructor (`signer.rs:379-384,436-443`). -/
def ModuleSigner.finish (p : Profile) (s : ModuleSigner) (blocks : List Value) : Res SigningBlock :=
  if s.padding then SigningBlock.newWithPadding p blocks else SigningBlock.new blocks

/-- `ModuleSigner::sign` (`signer.rs:344-385`). -/
def ModuleSigner.sign (E : Env) (p : Profile) (clock : Option UInt64) (s : ModuleSigner) (digests : Digests) :
    Res SigningBlock := do
  let b1 ← s.signV2Part E digests
  let b2 ← s.signStampPart E clock digests
  let blocks := b1 ++ b2
  if blocks.isEmpty then .err .noSigner
  else s.finish p blocks

/-- The filter of `add_source_stamp` (`signer.rs:422-430`). -/
def keepForStamp : Value → Bool
  | .stamp _ => false
  | v => v.id != paddingBlockId

/-- `ModuleSigner::add_source_stamp` (`signer.rs:399-444`). -/
def ModuleSigner.addSourceStamp (E : Env) (p : Profile) (clock : Option UInt64) (s : ModuleSigner)
    (existing : SigningBlock) (digests : Digests) : Res SigningBlock := do
  let c ← Res.ofOption .noSigner s.stamp
  let st ← stampSign E c s.timestamp clock digests
  s.finish p (existing.content.filter keepForStamp ++ [.stamp st])

end Ksusig
