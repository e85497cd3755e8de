import Verif.SpecVerify
import Verif.Model.CliInfo

/-!
# What each line printed by the info command means

For a file of `n` bytes in which the block `b` was found; `v` and `s` are the results of verifying the V2 signature and the source
stamp of the block without looking at the content, with the built-in root.
-/

namespace Ksusig.Spec

open Ksusig

/-- A line is printed exactly if what it says is the case. -/
inductive Shown (n : Nat) (b : SigningBlock) (v s : Verdict) : ILine → Prop where
  | fileSize : Shown n b v s (.fileSize n)
  | found : Shown n b v s .found
  | location : Shown n b v s (.location b.fileStart b.fileEnd)
  | size : Shown n b v s (.size (b.sizeStart + 8))
  -- one line for each kind of value the block has
  | contents : b.content ≠ [] → Shown n b v s .contents
  | v2Entry (x : SchemeV2) : .v2 x ∈ b.content → Shown n b v s .v2Entry
  | stampEntry (x : SourceStamp) : .stamp x ∈ b.content → Shown n b v s .stampEntry
  | elfEntry (e : ElfSectionInfo) : .elf e ∈ b.content → Shown n b v s (.elfEntry e.count.toNat)
  | unknownEntry (r : RawData) : .raw r ∈ b.content → Shown n b v s (.unknownEntry r.id)
  -- V2
  | v2Flags (r : VResult) : v = .ok r → Shown n b v s (.v2Flags r.sigValid r.digestValid r.chainValid r.trusted)
  | leaf (r : VResult) (c : Bytes) : v = .ok r → r.cert = some c → Shown n b v s (.leaf c)
  | chainLength (r : VResult) : v = .ok r → r.chain ≠ [] → Shown n b v s (.chainLength r.chain.length)
  | chainCert (r : VResult) (i : Nat) (c : Bytes) : v = .ok r → r.chain[i]? = some c → Shown n b v s (.chainCert i c)
  | noChain (r : VResult) : v = .ok r → r.chain = [] → Shown n b v s .noChain
  | warning (r : VResult) (i : Nat) (w : Warn) : v = .ok r → (i, w) ∈ r.warnings → Shown n b v s (.warning i w)
  | v2Unavailable (e : VErr) : v = .err e → Shown n b v s (.v2Unavailable e)
  -- source stamp: only if it is correctly signed
  | stampFlags (r : VResult) : s = .ok r → r.sigValid = true → Shown n b v s (.stampFlags true r.chainValid r.trusted)
  | stampLeaf (r : VResult) (c : Bytes) : s = .ok r → r.sigValid = true → r.cert = some c → Shown n b v s (.stampLeaf c)

end Ksusig.Spec
