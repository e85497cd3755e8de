import Verif.Model.Signable

/-!
# `/repo/src/verifier.rs` and `Module::verify_*` (`/repo/src/file_formats/module/mod.rs:113-242`)

`verifier.rs` is compiled only with feature `verify` (`lib.rs:52-53`), so its `not(feature = "verify")` fallbacks are
dead code and not modelled. Messages are replaced by constructors of `SignerErr`, `ChainMsg` and `Warn`. The clock is read
once per verification run (`now`); the code reads it again for every certificate chain.
-/

namespace Ksusig

/-- The messages put into `SignerVerifyResult::error` (`verifier.rs:692,726,735,758` and `845,860,878,918`). -/
inductive SignerErr where
  | invalidSignedData
  | signatureFailed
  | digestMismatch
  | keyBinding
  deriving DecidableEq, Repr

/-- The messages returned by `verify_chain` (`verifier.rs:435-509`). -/
inductive ChainMsg where
  | noRoots
  | leafUnparsable
  | expired
  | notYetValid
  | unknownIssuer
  | noCodeSigning
  | other
  deriving DecidableEq, Repr

/-- The messages put into `SignerVerifyResult::warnings` (`verifier.rs:717,744,785` and `891,897,933`). -/
inductive Warn where
  | noDigest (a : Algo)
  | notVerified
  | noMatchingDigest
  | chain (m : ChainMsg)
  deriving DecidableEq, Repr

/-- `VerifyError` (`verifier.rs:16-39`), the constructors that are ever built. -/
inductive VErr where
  | noSignature
  | invalidSignature
  | multiSigner (es : List SignerErr)
  deriving DecidableEq, Repr

/-- `extract_public_key_from_cert` and `verify_pubkey_binding` (`verifier.rs:91-131`); `true` is `Ok(())`. -/
def verifyPubkeyBinding (E : Env) (pubkey cert : Bytes) : Bool :=
  match E.certSpki cert with
  | none => false
  | some k => pubkey == k

/-- `SignerVerifyResult` (`verifier.rs:135-154`). -/
structure SignerResult where
  index : Nat
  sigValid : Bool
  digestValid : Bool
  chainValid : Bool
  trusted : Bool
  cert : Option Bytes
  chain : List Bytes
  warnings : List Warn
  error : Option SignerErr
  deriving DecidableEq, Repr

/-- `VerifyResult` (`verifier.rs:158-175`); a warning carries the number of its signer. -/
structure VResult where
  signers : List SignerResult
  sigValid : Bool
  digestValid : Bool
  chainValid : Bool
  trusted : Bool
  cert : Option Bytes
  chain : List Bytes
  warnings : List (Nat × Warn)
  deriving DecidableEq, Repr

/-- `VerifyResult::from_signers` (`verifier.rs:234-273`). -/
def VResult.fromSigners (rs : List SignerResult) : VResult :=
  match rs with
  | [] => ⟨[], false, false, false, false, none, [], []⟩
  | r :: _ =>
    ⟨rs, rs.all (·.sigValid), rs.all (·.digestValid), rs.all (·.chainValid), rs.all (·.trusted), r.cert, r.chain,
      rs.zipIdx.flatMap fun x => x.1.warnings.map fun w => (x.2 + 1, w)⟩

/-- `Result<VerifyResult, VerifyError>`. -/
inductive Verdict where
  | ok (r : VResult)
  | err (e : VErr)
  deriving DecidableEq, Repr

/-- `VerifyAllResult` (`verifier.rs:179-184`). -/
structure VAll where
  v2 : Verdict
  stamp : Verdict
  deriving DecidableEq, Repr

/-- `matches!(x, Ok(r) if r.signature_valid && r.digest_valid && r.cert_chain_valid && r.is_trusted)`
(`verifier.rs:202,204`). -/
def Verdict.allFlags : Verdict → Bool
  | .ok r => r.sigValid && r.digestValid && r.chainValid && r.trusted
  | .err _ => false

/-- `matches!(x, Err(VerifyError::NoSignature))` (`verifier.rs:203,205`). -/
def Verdict.isNoSignature : Verdict → Bool
  | .err .noSignature => true
  | _ => false

/-- `VerifyAllResult::is_valid` (`verifier.rs:201-207`). -/
def VAll.isValid (r : VAll) : Bool :=
  (r.v2.allFlags || r.v2.isNoSignature) && (r.stamp.allFlags || r.stamp.isNoSignature)

/-- `VerifyAllResult::has_v2` (`verifier.rs:211-213`). -/
def VAll.hasV2 (r : VAll) : Bool := !r.v2.isNoSignature

/-- `VerifyAllResult::has_source_stamp` (`verifier.rs:217-219`). -/
def VAll.hasStamp (r : VAll) : Bool := !r.stamp.isNoSignature

/-! ## Trusted roots -/

/-- `TrustedRoots` (`verifier.rs:282-288`); a trust anchor is represented by the certificate it was built from. -/
structure Roots where
  roots : List Bytes
  anchors : List Bytes
  deriving DecidableEq, Repr

/-- `TrustedRoots::new` (`verifier.rs:298-304`). -/
def Roots.new : Roots := ⟨[], []⟩

/-- `TrustedRoots::add_root` (`verifier.rs:339-347`). -/
def Roots.add (E : Env) (r : Roots) (cert : Bytes) : Roots :=
  let anchors := if E.anchorOk cert then r.anchors ++ [cert] else r.anchors
  ⟨r.roots ++ [cert], anchors⟩

/-- `TrustedRoots::add_root_pem` (`verifier.rs:360-367`). -/
def Roots.addPem (E : Env) (r : Roots) (pem : Bytes) : Res Roots :=
  match E.pemParse pem with
  | none => .err .keystore
  | some (tag, contents) => if tag ≠ "CERTIFICATE" then .err .keystore else .ok (r.add E contents)

/-- `TrustedRoots::with_builtin` (`verifier.rs:314-329`), given the embedded PEM text
(`/repo/builtin_certs/kernelsu_root_ca_p384.pem`); a failure is only printed. -/
def Roots.withBuiltin (E : Env) (builtinPem : Bytes) : Roots :=
  match Roots.new.addPem E builtinPem with
  | .ok r => r
  | _ => Roots.new

/-- `TrustedRoots::is_direct_root` (`verifier.rs:370-372`). -/
def Roots.isDirect (r : Roots) (cert : Bytes) : Bool := r.roots.any (· == cert)

/-- `TrustedRoots::is_empty` (`verifier.rs:380-382`). -/
def Roots.isEmpty (r : Roots) : Bool := r.roots.isEmpty

/-! ## Certificate chains -/

/-- The loop of `validate_chain_structure` (`verifier.rs:571-588`), given the current certificate's issuer. -/
def chainLinks (E : Env) (issuer : Bytes) : List Bytes → Bool
  | [] => true
  | c :: cs =>
    match E.certNames c with
    | none => false
    | some (issuer', subject) => if issuer ≠ subject then false else chainLinks E issuer' cs

/-- `validate_chain_structure` (`verifier.rs:557-589`). -/
def chainStructure (E : Env) (leaf : Bytes) (inters : List Bytes) : Bool :=
  match inters with
  | [] => true
  | _ =>
    match E.certNames leaf with
    | none => false
    | some (issuer, _) => chainLinks E issuer inters

/-- `verify_chain` (`verifier.rs:422-512`): chain valid, trusted, message. -/
def verifyChain (E : Env) (roots : Roots) (now : Nat) (leaf : Bytes) (inters : List Bytes) :
    Bool × Bool × Option ChainMsg :=
  if roots.isEmpty then (chainStructure E leaf inters, false, some .noRoots)
  else if roots.isDirect leaf then (true, true, none)
  else if !E.eeOk leaf then (false, false, some .leafUnparsable)
  else match E.pki roots.anchors leaf inters now with
    | .ok => (true, true, none)
    | .expired => (false, false, some .expired)
    | .notYetValid => (false, false, some .notYetValid)
    | .unknownIssuer => (chainStructure E leaf inters, false, some .unknownIssuer)
    | .ekuMissing => (false, false, some .noCodeSigning)
    | .other => (false, false, some .other)

/-! ## Digest context -/

/-- `DigestContext` (`verifier.rs:607-610`): the hash map as an association list with at most one entry per key. -/
structure DigestCtx where
  entries : List (UInt32 × Bytes)
  deriving DecidableEq, Repr

/-- `DigestContext::new` (`verifier.rs:614-618`). -/
def DigestCtx.new : DigestCtx := ⟨[]⟩

/-- `DigestContext::add_digest` (`verifier.rs:621-623`), `HashMap::insert`. -/
def DigestCtx.add (c : DigestCtx) (id : UInt32) (d : Bytes) : DigestCtx :=
  ⟨(id, d) :: c.entries.filter fun e => e.1 != id⟩

/-- `DigestContext::get_digest` (`verifier.rs:626-628`). -/
def DigestCtx.get (c : DigestCtx) (id : UInt32) : Option Bytes :=
  (c.entries.find? fun e => e.1 == id).map (·.2)

/-- `DigestContext::verify_digest` (`verifier.rs:631-635`). -/
def DigestCtx.verify (c : DigestCtx) (id : UInt32) (stored : Bytes) : Bool :=
  match c.get id with
  | some computed => computed == stored
  | none => false

/-! ## V2 signers -/

/-- The parts of the signer result and the flags the signature loops change. -/
structure SigState where
  sigValid : Bool
  digestVerified : Bool
  digestValid : Bool
  warnings : List Warn
  error : Option SignerErr
  deriving DecidableEq, Repr

/-- State before the loops (`verifier.rs:681-684,699` and `832-835,852-853`). -/
def SigState.init : SigState := ⟨true, false, false, [], none⟩

/-- The signature loop of `verify_v2_with_digest` (`verifier.rs:700-746`). -/
def v2SigLoop (E : Env) (ctx : Option DigestCtx) (pubkey raw : Bytes) (digests : List Digest) :
    List Sig → SigState → SigState
  | [], st => st
  | sig :: rest, st =>
    match digests.find? (fun d => d.algo == sig.algo) with
    | none => { st with warnings := st.warnings ++ [.noDigest sig.algo], sigValid := false }
    | some d =>
      if !sig.algo.verify E pubkey raw sig.signature then
        { st with error := some .signatureFailed, sigValid := false }
      else
        match ctx with
        | some c =>
          if !c.verify sig.algo.toU32 d.digest then
            v2SigLoop E ctx pubkey raw digests rest { st with error := some .digestMismatch, digestValid := false }
          else
            v2SigLoop E ctx pubkey raw digests rest { st with digestValid := true }
        | none =>
          v2SigLoop E ctx pubkey raw digests rest
            { st with digestValid := false, warnings := st.warnings ++ [.notVerified] }

/-- The end of both verifiers' loop bodies (`verifier.rs:748-789` and `903-938`): key binding and chain. -/
def finishSigner (E : Env) (roots : Roots) (now : Nat) (idx : Nat) (pubkey : Bytes) (certs : List Bytes)
    (inters : List Bytes) (chainShown : List Bytes) (st : SigState) : SignerResult :=
  let sigValid := st.sigValid && st.error.isNone
  match certs with
  | [] => ⟨idx, sigValid, st.digestValid, false, false, none, [], st.warnings, st.error⟩
  | cert :: _ =>
    if !verifyPubkeyBinding E pubkey cert then
      ⟨idx, false, st.digestValid, false, false, some cert, [], st.warnings, some .keyBinding⟩
    else
      let (chainValid, trusted, msg) := verifyChain E roots now cert inters
      ⟨idx, sigValid, st.digestValid, chainValid, trusted, some cert, chainShown,
        st.warnings ++ (match msg with | some m => [.chain m] | none => []), st.error⟩

/-- One iteration of the signer loop of `verify_v2_with_digest` (`verifier.rs:680-790`). -/
def verifySigner (E : Env) (roots : Roots) (now : Nat) (ctx : Option DigestCtx) (idx : Nat) (s : SignerV2) :
    SignerResult :=
  match sliceFrom? s.signedData.toU8 4 with
  | none => ⟨idx, false, false, false, false, none, [], [], some .invalidSignedData⟩
  | some raw =>
    let st := v2SigLoop E ctx s.pubKey.data raw s.signedData.digests.data s.sigs.data SigState.init
    let certs := s.signedData.certs.data.map (·.cert)
    finishSigner E roots now idx s.pubKey.data certs (certs.drop 1) (certs.drop 1) st

/-- The common end of both verifiers (`verifier.rs:794-808` and `942-956`). -/
def concludeVerify (rs : List SignerResult) : Verdict :=
  if rs.isEmpty then .err .noSignature
  else
    let failures := rs.filterMap (·.error)
    if !failures.isEmpty then .err (.multiSigner failures) else .ok (VResult.fromSigners rs)

/-- `verify_v2_with_digest` (`verifier.rs:670-809`). -/
def verifyV2 (E : Env) (roots : Roots) (now : Nat) (b : SigningBlock) (ctx : Option DigestCtx) : Verdict :=
  concludeVerify (b.content.flatMap fun v =>
    match v with
    | .v2 s => s.signers.data.zipIdx.map fun x => verifySigner E roots now ctx x.2 x.1
    | _ => [])

/-! ## Source stamp -/

/-- The signature loop of `verify_source_stamp_with_digest` (`verifier.rs:855-886`). -/
def stampSigLoop (E : Env) (ctx : Option DigestCtx) (pubkey raw : Bytes) (digests : List Digest) :
    List Sig → SigState → SigState
  | [], st => st
  | sig :: rest, st =>
    if !sig.algo.verify E pubkey raw sig.signature then
      { st with error := some .signatureFailed, sigValid := false }
    else
      match digests.find? (fun d => d.algo == sig.algo) with
      | none => stampSigLoop E ctx pubkey raw digests rest st
      | some d =>
        match ctx with
        | some c =>
          if !c.verify sig.algo.toU32 d.digest then
            stampSigLoop E ctx pubkey raw digests rest { st with error := some .digestMismatch, digestValid := false }
          else
            stampSigLoop E ctx pubkey raw digests rest { st with digestValid := true, digestVerified := true }
        | none => stampSigLoop E ctx pubkey raw digests rest st

/-- The adjustment after the loop (`verifier.rs:889-901`). -/
def stampAdjust (ctx : Option DigestCtx) (st : SigState) : SigState :=
  if ctx.isNone then { st with digestValid := false, warnings := st.warnings ++ [.notVerified] }
  else if !st.digestVerified && st.error.isNone then
    { st with digestValid := false, warnings := st.warnings ++ [.noMatchingDigest] }
  else st

/-- The body of the stamp loop (`verifier.rs:831-938`): the result and whether the loop stops. -/
def verifyStamp (E : Env) (roots : Roots) (now : Nat) (ctx : Option DigestCtx) (s : StampBlock) :
    SignerResult × Bool :=
  match sliceFrom? s.signedData.toU8 4 with
  | none => (⟨0, false, false, false, false, none, [], [], some .invalidSignedData⟩, false)
  | some raw =>
    let st := stampAdjust ctx
      (stampSigLoop E ctx s.pubKey.data raw s.signedData.digests.data s.sigs.data SigState.init)
    (finishSigner E roots now 0 s.pubKey.data (s.signedData.certs.data.map (·.cert)) [] [] st, true)

/-- The loop over the content of `verify_source_stamp_with_digest` (`verifier.rs:829-940`). -/
def stampLoop (E : Env) (roots : Roots) (now : Nat) (ctx : Option DigestCtx) : List Value → List SignerResult
  | [] => []
  | .stamp s :: rest =>
    let (r, stop) := verifyStamp E roots now ctx s.block
    if stop then [r] else r :: stampLoop E roots now ctx rest
  | _ :: rest => stampLoop E roots now ctx rest

/-- `verify_source_stamp_with_digest` (`verifier.rs:822-957`); `verify_source_stamp` (`966-973`) is the case
`ctx = none`. -/
def verifySourceStamp (E : Env) (roots : Roots) (now : Nat) (b : SigningBlock) (ctx : Option DigestCtx) : Verdict :=
  concludeVerify (stampLoop E roots now ctx b.content)

/-- `verify_all_with_digest` (`verifier.rs:987-996`). -/
def verifyAll (E : Env) (roots : Roots) (now : Nat) (b : SigningBlock) (ctx : Option DigestCtx) : VAll :=
  ⟨verifyV2 E roots now b ctx, verifySourceStamp E roots now b ctx⟩

/-- `verify_with_roots_and_digest` (`verifier.rs:1015-1022`). -/
def verifyWithRootsAndDigest (E : Env) (roots : Roots) (now : Nat) (b : SigningBlock) (ctx : DigestCtx) : Verdict :=
  verifyV2 E roots now b (some ctx)

/-- `verify_with_digest` (`verifier.rs:1003-1009`). -/
def verifyWithDigest (E : Env) (builtinPem : Bytes) (now : Nat) (b : SigningBlock) (ctx : DigestCtx) : Verdict :=
  verifyV2 E (Roots.withBuiltin E builtinPem) now b (some ctx)

/-! ## `Module::verify_full`, `Module::verify_with_roots` -/

/-- The algorithms of the digests stored in V2 signers and source stamps, in the order the loops of
`verify_full` / `verify_with_roots` visit them (`module/mod.rs:135-167,206-238`). -/
def storedAlgos (b : SigningBlock) : List Algo :=
  b.content.flatMap fun v =>
    match v with
    | .v2 s => s.signers.data.flatMap fun g => g.signedData.digests.data.map (·.algo)
    | .stamp s => s.block.signedData.digests.data.map (·.algo)
    | _ => []

/-- Filling the digest context (`module/mod.rs:143-148,160-164,214-219,231-235`). `files k` is what the `k`-th opening of the path finds;
`Module::digest` opens the file itself first and then three more times while determining the offsets (a call that fails
early opens it fewer times; the numbers only name the openings). -/
def fillCtxT (E : Env) (p : Profile) (m : Module) (files : Nat → Bytes) : List Algo → Nat → DigestCtx → Res DigestCtx
  | [], _, c => .ok c
  | a :: as, k, c =>
    if (c.get a.toU32).isNone then
      match m.digestT E p (files k) (files (k + 1)) (files (k + 2)) (files (k + 3)) a with
      | .ok d => fillCtxT E p m files as (k + 4) (c.add a.toU32 d)
      | .err _ => fillCtxT E p m files as (k + 4) c
      | .panic => .panic
    else fillCtxT E p m files as k c

/-- `Module::verify_with_roots` (`module/mod.rs:181-242`) on a file that may change between openings. -/
def Module.verifyWithRootsT (E : Env) (p : Profile) (m : Module) (files : Nat → Bytes) (roots : Roots) (now : Nat) :
    Res VAll :=
  match m.getSigningBlockT p (files 0) (files 1) with
  | .err _ => .ok ⟨.err .invalidSignature, .err .noSignature⟩
  | .panic => .panic
  | .ok b => do
    let ctx ← fillCtxT E p m files (storedAlgos b) 2 DigestCtx.new
    .ok (verifyAll E roots now b (some ctx))

/-- `Module::verify_with_roots` (`module/mod.rs:181-242`). -/
def Module.verifyWithRoots (E : Env) (p : Profile) (m : Module) (file : Bytes) (roots : Roots) (now : Nat) : Res VAll :=
  m.verifyWithRootsT E p (fun _ => file) roots now

/-- `Module::verify_full` (`module/mod.rs:113-171`): the same with the built-in roots. -/
def Module.verifyFull (E : Env) (p : Profile) (m : Module) (file : Bytes) (builtinPem : Bytes) (now : Nat) : Res VAll :=
  m.verifyWithRoots E p file (Roots.withBuiltin E builtinPem) now

end Ksusig
