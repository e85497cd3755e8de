import Verif.Model.CliOut

/-!
# What each line printed by the sign and the digest command means
-/

namespace Ksusig.Spec

open Ksusig

/-- The digests of the file that are to be signed, one for each algorithm that is needed. -/
def DigestsOf (M : Machine) (s : SignableFile) (algos : List Algo) (pairs : List (Algo × Bytes)) : Prop :=
  pairs.map (·.1) = algos ∧ ∀ x ∈ pairs, s.digest M.env M.profile M.acc x.1 = .ok x.2

/-- The block `b` is made by `signer` for the file: it signs the digests, and for an ELF file the sections are recorded in it. -/
def Makes (M : Machine) (clock : Option UInt64) (signer : ModuleSigner) (s : SignableFile) (b : SigningBlock) : Prop :=
  ∃ pairs b0, DigestsOf M s signer.requiredAlgorithms pairs ∧
    signer.sign M.env M.profile clock (Digests.new (pairs.map fun x => Digest.new x.1 x.2)) = .ok b0 ∧ s.record M.acc b0 = .ok b

/-- The input can be opened with the given sections. -/
def Target (M : Machine) (fs : Fs) (input : Path) (sections : List (List Char)) (s : SignableFile) : Prop :=
  ∃ file, fs input = some file ∧ cliOpen M.acc sections file = .ok s

/-- Both the signer and the file to sign are there. -/
def ReadyToSign (M : Machine) (fs : Fs) (input : Path) (v2 stamp : CredPaths) (sections : List (List Char)) (signer : ModuleSigner)
    (s : SignableFile) : Prop :=
  signerFrom M.keys fs v2 stamp = .ok signer ∧ Target M fs input sections s

/-- Lines of the sign command: a line is printed exactly if what it says is the case. -/
inductive SignSays (M : Machine) (now : Nat) (clock : Option UInt64) (fs : Fs) (input output : Path) (v2 stamp : CredPaths)
    (sections : List (List Char)) : SLine → Prop where
  | start : SignSays M now clock fs input output v2 stamp sections .start
  | v2Key (c : Credentials) : v2.load M.keys fs = .ok (some c) → SignSays M now clock fs input output v2 stamp sections .v2Key
  | stampKey (c d : Credentials) : v2.load M.keys fs = .ok (some c) → stamp.load M.keys fs = .ok (some d) →
      SignSays M now clock fs input output v2 stamp sections .stampKey
  | format (signer : ModuleSigner) (s : SignableFile) : ReadyToSign M fs input v2 stamp sections signer s →
      SignSays M now clock fs input output v2 stamp sections (.format s.format)
  -- the regions that are hashed
  | regions (signer : ModuleSigner) (s : SignableFile) (rs : List DigestRegion) : ReadyToSign M fs input v2 stamp sections signer s →
      s.digestRegions M.profile M.acc = .ok rs → SignSays M now clock fs input output v2 stamp sections .regions
  | region (signer : ModuleSigner) (s : SignableFile) (rs : List DigestRegion) (r : DigestRegion) :
      ReadyToSign M fs input v2 stamp sections signer s → s.digestRegions M.profile M.acc = .ok rs → r ∈ rs →
      SignSays M now clock fs input output v2 stamp sections (.region r)
  -- the digests that are needed
  | count (signer : ModuleSigner) (s : SignableFile) (rs : List DigestRegion) : ReadyToSign M fs input v2 stamp sections signer s →
      s.digestRegions M.profile M.acc = .ok rs →
      SignSays M now clock fs input output v2 stamp sections (.count signer.requiredAlgorithms.length)
  | calculating (signer : ModuleSigner) (s : SignableFile) (rs : List DigestRegion) : ReadyToSign M fs input v2 stamp sections signer s →
      s.digestRegions M.profile M.acc = .ok rs → SignSays M now clock fs input output v2 stamp sections .calculating
  -- a digest is begun when those before it are done
  | hashing (signer : ModuleSigner) (s : SignableFile) (rs : List DigestRegion) (done rest : List Algo) (a : Algo)
      (pairs : List (Algo × Bytes)) : ReadyToSign M fs input v2 stamp sections signer s →
      s.digestRegions M.profile M.acc = .ok rs → signer.requiredAlgorithms = done ++ a :: rest → DigestsOf M s done pairs →
      SignSays M now clock fs input output v2 stamp sections (.hashing a)
  | digestsDone (signer : ModuleSigner) (s : SignableFile) (rs : List DigestRegion) (pairs : List (Algo × Bytes)) :
      ReadyToSign M fs input v2 stamp sections signer s → s.digestRegions M.profile M.acc = .ok rs →
      DigestsOf M s signer.requiredAlgorithms pairs → SignSays M now clock fs input output v2 stamp sections .digestsDone
  | signing (signer : ModuleSigner) (s : SignableFile) (rs : List DigestRegion) (pairs : List (Algo × Bytes)) :
      ReadyToSign M fs input v2 stamp sections signer s → s.digestRegions M.profile M.acc = .ok rs →
      DigestsOf M s signer.requiredAlgorithms pairs → SignSays M now clock fs input output v2 stamp sections .signing
  -- the size of the block as it is written
  | complete (signer : ModuleSigner) (s : SignableFile) (rs : List DigestRegion) (b : SigningBlock) :
      ReadyToSign M fs input v2 stamp sections signer s → s.digestRegions M.profile M.acc = .ok rs → Makes M clock signer s b →
      SignSays M now clock fs input output v2 stamp sections (.complete b.toU8.length)
  | writing (signer : ModuleSigner) (s : SignableFile) (rs : List DigestRegion) (b : SigningBlock) :
      ReadyToSign M fs input v2 stamp sections signer s → s.digestRegions M.profile M.acc = .ok rs → Makes M clock signer s b →
      SignSays M now clock fs input output v2 stamp sections .writing
  | success : ((Command.sign input output v2 stamp sections).exec M now clock fs).result = .ok () →
      SignSays M now clock fs input output v2 stamp sections .success

/-- The sum of the sizes, as a 64-bit number. -/
def totalSize (rs : List DigestRegion) : Nat := (rs.map (·.size)).sum % 2 ^ 64

/-- The sizes can be added up: in builds with overflow checks their sum must be a 64-bit number. -/
def Summable (p : Profile) (rs : List DigestRegion) : Prop := p = .release ∨ (rs.map (·.size)).sum < 2 ^ 64

/-- Lines both uses of the digest command print. -/
inductive ListSays (M : Machine) (fs : Fs) (input : Path) (sections : List (List Char)) : DLine → Prop where
  | format (s : SignableFile) : Target M fs input sections s → ListSays M fs input sections (.format s.format)
  | regions (s : SignableFile) (rs : List DigestRegion) : Target M fs input sections s → s.digestRegions M.profile M.acc = .ok rs →
      ListSays M fs input sections .regions
  -- with overflow checks the listing ends with the region that makes the sum too large
  | region (s : SignableFile) (rs before after : List DigestRegion) (r : DigestRegion) : Target M fs input sections s →
      s.digestRegions M.profile M.acc = .ok rs → rs = before ++ r :: after → Summable M.profile before →
      ListSays M fs input sections (.region r)
  | total (s : SignableFile) (rs : List DigestRegion) : Target M fs input sections s → s.digestRegions M.profile M.acc = .ok rs →
      Summable M.profile rs → ListSays M fs input sections (.total (totalSize rs))

/-- Lines of the digest command without `--dump`. -/
inductive DigestSays (M : Machine) (fs : Fs) (input : Path) (sha512 : Bool) (format : OutputFormat) (sections : List (List Char)) :
    DLine → Prop where
  | list (l : DLine) : ListSays M fs input sections l → DigestSays M fs input sha512 format sections l
  | algorithm (s : SignableFile) (rs : List DigestRegion) : Target M fs input sections s → s.digestRegions M.profile M.acc = .ok rs →
      Summable M.profile rs → DigestSays M fs input sha512 format sections (.algorithm sha512)
  | digest (s : SignableFile) (rs : List DigestRegion) (d : Bytes) : Target M fs input sections s →
      s.digestRegions M.profile M.acc = .ok rs → Summable M.profile rs →
      s.digest M.env M.profile M.acc (if sha512 then .p384 else .p256) = .ok d →
      DigestSays M fs input sha512 format sections (.digest (format.render d))

/-- The place of a line of the sign command in its output. -/
def place : SLine → Nat
  | .start => 0
  | .v2Key => 1
  | .stampKey => 2
  | .format _ => 3
  | .regions => 4
  | .region _ => 5
  | .count _ => 6
  | .calculating => 7
  | .hashing _ => 8
  | .digestsDone => 9
  | .signing => 10
  | .complete _ => 11
  | .writing => 12
  | .success => 13

/-- `x` may come before `y`: there can be several lines only for regions and for digests. -/
def Before (x y : SLine) : Prop := place x < place y ∨ (place x = place y ∧ (place x = 5 ∨ place x = 8))

/-- The regions in the output, in the order of the lines. -/
def regionsShown (l : List SLine) : List DigestRegion := l.filterMap fun | .region r => some r | _ => none

/-- The digests in the output, in the order of the lines. -/
def hashesShown (l : List SLine) : List Algo := l.filterMap fun | .hashing a => some a | _ => none

/-- The place of a line of the digest command in its output. -/
def dplace : DLine → Nat
  | .format _ => 0
  | .regions => 1
  | .region _ => 2
  | .total _ => 3
  | .algorithm _ => 4
  | .digest _ => 5
  | .dumped _ => 5

/-- `x` may come before `y`: there can be several lines only for regions. -/
def DBefore (x y : DLine) : Prop := dplace x < dplace y ∨ (dplace x = 2 ∧ dplace y = 2)

/-- The regions in the output of the digest command, in the order of the lines. -/
def regionsListed (l : List DLine) : List DigestRegion := l.filterMap fun | .region r => some r | _ => none

end Ksusig.Spec
