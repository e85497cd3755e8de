import Verif.Model.Verifier

/-!
# Verification with a clock that moves

`verify_chain` asks for the time itself, each time it is called (`verifier.rs:464-469`). In `Model/Verifier.lean` all calls of one
verification see the same time; here each sees its own. The times are named by the place of the signer: `clock i j` is what the
check of the chain of signer `j` of the V2 block at position `i` sees, `clock i 0` what that of the stamp at position `i` sees.
`verify_all_with_digest` runs both verifiers one after the other, so they are given a clock each.
-/

namespace Ksusig

/-- The results of `verify_v2_with_digest` (`verifier.rs:670-790`). -/
def v2ResultsAt (E : Env) (roots : Roots) (clock : Nat → Nat → Nat) (b : SigningBlock) (ctx : Option DigestCtx) :
    List SignerResult :=
  b.content.zipIdx.flatMap fun v =>
    match v.1 with
    | .v2 s => s.signers.data.zipIdx.map fun x => verifySigner E roots (clock v.2 x.2) ctx x.2 x.1
    | _ => []

/-- `verify_v2_with_digest` (`verifier.rs:670-809`). -/
def verifyV2At (E : Env) (roots : Roots) (clock : Nat → Nat → Nat) (b : SigningBlock) (ctx : Option DigestCtx) : Verdict :=
  concludeVerify (v2ResultsAt E roots clock b ctx)

/-- The loop of `verify_source_stamp_with_digest` (`verifier.rs:829-940`), from position `i` on. -/
def stampLoopAt (E : Env) (roots : Roots) (clock : Nat → Nat → Nat) (ctx : Option DigestCtx) : Nat → List Value → List SignerResult
  | _, [] => []
  | i, .stamp s :: rest =>
    let (r, stop) := verifyStamp E roots (clock i 0) ctx s.block
    if stop then [r] else r :: stampLoopAt E roots clock ctx (i + 1) rest
  | i, _ :: rest => stampLoopAt E roots clock ctx (i + 1) rest

/-- `verify_source_stamp_with_digest` (`verifier.rs:822-957`). -/
def verifySourceStampAt (E : Env) (roots : Roots) (clock : Nat → Nat → Nat) (b : SigningBlock) (ctx : Option DigestCtx) : Verdict :=
  concludeVerify (stampLoopAt E roots clock ctx 0 b.content)

/-- `verify_all_with_digest` (`verifier.rs:987-996`). -/
def verifyAllAt (E : Env) (roots : Roots) (clock clock' : Nat → Nat → Nat) (b : SigningBlock) (ctx : Option DigestCtx) : VAll :=
  ⟨verifyV2At E roots clock b ctx, verifySourceStampAt E roots clock' b ctx⟩

end Ksusig
