# Formal model of Kernel-SU/ksusig: design

Everything below concerns the pinned source in `/repo` (read as text; never built here). The model and
proofs are in `lean/Verif`. Property texts are in `properties.jsonl`, the status of each in `MANIFEST.json`,
seeded-bug experiments in `seeded/LOG.jsonl`.

How to read that log. A build of an edited model is stopped at the first broken declaration on which a claim rests.
`failed` lists only the declarations seen to break. `dependent_claims` lists claim theorems whose proofs use one of
them; they were not themselves checked against the edited model. A broken proof shows that the edit is noticed. It
does not by itself show that the statement of a claim has become false: another proof might exist. `evidence` says
for each line whether the proof of a claim theorem broke or only a helper did, which is the weaker result and
the more frequent one. For some lines the build was then continued past
the broken helpers; `rebuilt_in_full` lists everything that broke, and whether the build reached its end. Lines logged before this was written named the dependent claims under `failed`; all have been converted.

## Layout

* `lean/Verif/Model/*.lean`: the model, function by function; each definition cites file and lines.
* `lean/Verif/Spec*.lean`: small independent specifications that the property theorems are stated with.
  `Spec` has the wire format, well-formed archives, stripped files and digests; `SpecVerify` what a good signer,
  stamp and trusted certificate are; `SpecSign` what sound signing credentials are; `SpecElf` ELF section tables,
  section names and their selection; `SpecKeys` key files and bundles; `SpecForge` forgeries and collisions;
  `SpecProgram` what commands read and write; `SpecReport` what a verification report claims; `SpecAnatomy`, `SpecElfAnatomy`
  and `SpecGrammar` end records, located blocks, regions and the grammar of blocks; `SpecSerde` and `SpecDocument` stored
  blocks; `SpecNoElf` and `SpecNarrow` what other builds and machines read; `SpecInfo`, `SpecLines`, `SpecOut` what commands print;
  `SpecHandle`, `SpecUses`, `SpecOpenings`, `SpecWorld`, `SpecProc` handles, histories of uses and files that change;
  `SpecFault` storage faults; `SpecTrust` trust paths.
* `lean/Verif/Proofs/*.lean`: helper lemmas.
* `lean/Verif/Props/*.lean`: the property theorems `Cxx_…`, each with an `example` (or a witness theorem)
  showing that its hypotheses are met by a concrete non-trivial case.
* `lean/Verif/ElfSamples.lean`: concrete ELF files used by examples and witnesses.

## Modelling decisions

* Bytes are `List UInt8`. `usize` is `Nat` (64-bit target; lengths of real vectors are < 2^63, so sums of
  two lengths do not overflow). Where the code subtracts `usize` values without a check, or adds values taken
  from a file, the model uses an explicit operation with a build profile parameter: in `dev` builds it panics
  on overflow, in `release` it wraps modulo 2^64. `debug_assert` panics only in `dev`. `x as u32` / `x as u16`
  are truncations. `Model/Narrow.lean` alone has a 32-bit `usize` (reading side, digest and verify command, C108).
* `Result` is data: `Res α = ok | err Err | panic`. Error strings become an enumeration; the distinctions the
  code itself makes on message text (`contains("Magic not found")`, `ModuleIsRaw`) are kept.
* `MyReader` is a state-passing parser. `while` loops run on fuel that is at least the input length; running
  out of fuel is a distinct error, and it is *proved* that it never happens (this is the termination claim).
* Files are byte lists; a path whose content changes between opens is a sequence of byte lists, one per open.
  In `Model/Program.lean` a file system maps paths to contents.
* A generic `Read` is a byte list plus a schedule of read sizes.
* External code is a parameter (`Env`, `KeyEnv`, `acc`): see the trusted base. Theorems that need a fact about
  it take it as a hypothesis (e.g. "a signature made with a key verifies under its public key"); `toyEnv` and
  `toyMachine` are concrete instances that meet these hypotheses and are used only in examples and witnesses.
* No security statement assumes that hashes are injective. Where a digest has to identify a content the
  conclusion is "or these two concrete, different hash inputs collide", and the inputs are ones that the code
  really hashes (`hashInputs`, `Collision`). Likewise "or this signature, found in the file, is a forgery".

## Plan per property

| id | what is modelled | how it is proved |
|----|------------------|------------------|
| C01 | all encoders/decoders in common.rs, scheme_v2.rs, source_stamp.rs, elf_section_info.rs, signing_block/mod.rs | compositional "parses" relation: parser applied anywhere inside a larger buffer returns the value and advances by the encoding's length; induction over lists |
| C02 | size computations | length lemma of every encoder, arithmetic |
| C03 | new_with_padding | case analysis on the residue, modular arithmetic |
| C04 | new_with_padding with build profile | false in dev builds: witness; release and exact-error characterisation proved |
| C05 | new / new_with_padding / recalculate_size / from_u8 | limits proved equal; false for the ELF path: witness; `_partial` for the module path |
| C06 | from_u8, from_reader, all parsers | totality invariant for every parser (position moves forward, stays in bounds, fuel suffices); false in dev builds: witnesses; exact condition in dev builds |
| C07 | parse_full_block, from_u8, from_reader | inversion of successful runs; tiling predicate by induction |
| C08 | parse followed by to_u8 | false: witnesses; `_partial` for canonical encodings |
| C09 | pair parsing and RawData | direct |
| C10 | declared allocations | false: witness families (unbounded ratio); `_partial` bound for what is bounded |
| C11 | algorithms.rs | case split over u32 |
| C12, C13 | zip.rs | induction on the backwards scan |
| C14, C15 | from_reader, get_signing_block | scan lemma (last magic); C15 is false for nested magic: witness, `_partial` with "no magic before the directory" |
| C16 | digest_module | injectivity of the chunk framing, explicit collision extraction |
| C17 | digest of signed/unsigned | layout computation |
| C18 | digest_regions | arithmetic from get_offsets inversion |
| C19 | digest with a read schedule | false: witness; `_partial` for readers that fill the buffer |
| C20 | digest/verify with changed offset | false: general theorem that the offset can be changed undetected |
| C21–C24 | Signable::write_with_signature, get_raw_module, get_signing_block | layout computation + C01 + C14; induction over histories |
| C25 | sign command, ModuleSigner, verify_full | composition of C01, C17, C21 with the signature-correctness hypothesis |
| C26 | as C21 with trailing bytes | false: witness/general theorem; `_partial` = C21 |
| C27–C32, C55, C56 | verifier.rs | induction over signers and signatures; C28 false: witness |
| C33, C57 | CertChainVerifier | case analysis over PKI outcomes, induction over additions |
| C34 | is_valid | false: witness; `_partial` with V2 result present |
| C35, C36 | cli/verify.rs | equivalence proof through digest-context extensionality |
| C37–C39 | signer.rs, source_stamp.rs | unfolding, list induction |
| C40, C41 | keystore.rs | case analysis, list induction |
| C42, C43 | Module raw workflow | layout computation; C43 false: witnesses |
| C44–C48 | elf/mod.rs, elf/digest.rs, elf_section_info.rs | sorting lemma, patch/append lemmas, section table codec |
| C49, C50 | cli/digest.rs | induction |
| C51 | detect_file_format | case analysis |
| C52 | get_offsets and callers | case analysis; positive half needs a body of at least 24 bytes (counterexample for smaller) |
| C53 | DigestContext | induction over histories |
| C54 | verify_full with a changing file | false: witness; `_partial` for an unchanging file |
| C58 | digest/verify pipeline | false in dev builds: witnesses; release proved |
| C59 | whole sign command on a file system of one input and one output: what is written when it fails | case analysis of the command; false in place: general theorem |
| C60 | cli/info.rs: block search in the last 16 MiB, then the printed content | the scan lemma of C14 for both searches; false for a second magic: general theorem |
| C61 | write_with_signature for ELF with its checked arithmetic and `Vec::resize` | inversion of every step under a size bound; false: witness with a huge alignment |
| C62 | elf/digest.rs | injectivity of the chunk framing, collision extraction; names/boundaries/entry point: general theorems and witnesses |
| C63, C64 | sign command on ELF, verify of the block; verify command on any file | composition of C46/C47 with C27/C35; negations for oversize blocks and for all files without end record |
| C65 | section options on a module | case analysis of the sign command |
| C66, C68 | credential loading + sign + verify | composition of C40 with C25/C27; negations for all mismatching credentials / chains |
| C67 | option handling of the sign command | case analysis over all combinations of options |
| C69 | encrypted keys | case analysis over the decoders' outcomes |
| C70–C72 | cli/digest.rs for both formats, dump with output file | composition with C18/C49/C62; the dump determines the preimage, by list surgery |
| C73, C75, C76 | every field of the verification report, the warnings, the printed failures | induction over signers, signatures, blocks with a "report = map of verdicts" invariant |
| C74 | signer configuration builders | induction over sequences of setter calls |
| C77 | sign and verify commands, honest uses of keys as a set of signed messages | every accepted file is either covered by a recorded signing run, or exhibits a forged signature or a hash collision located in the file; composition of C16, C27, C35 |
| C78 | both digest functions | equality of the two chunk framings when the concatenated content agrees; general theorem and witness |
| C79 | `main` dispatch, all five commands as steps of a file system (`Model/Program.lean`) | frame lemma per command, induction over histories; composition with C25, C36, C59, C71 |
| C80 | exit status of `main` | case analysis of the commands on top of C35, C58, C61 |
| C81 | a signing stopped at any point: the output holds a prefix of what would have been written | every proper prefix is cut before the end record; composition with C12, C77; false for a signed module in front: general theorem and witness |
| C82 | `content_mut` edits followed by `recalculate_size` | size invariant under arbitrary edits, composition with C01/C02; false beyond the limit: general theorem |
| C83 | every line the verify command prints (`Model/CliVerify.lean`) | the lines as a function of the report; case analysis and induction over signers |
| C84 | every line the info command prints (`Model/CliInfo.lean`) | tiling of C07 line by line; report invariants of C73/C75 without digests |
| C85 | `is_signed` of both file formats and in every state of a module | case analysis on the result of reading; composition with C15, C21, C22, C47, C52 |
| C86 | the commands as processes, one file operation at a time; schedules, crash points and buffering as parameters (`Model/Proc.lean`, `SpecProc.lean`) | the process run alone equals `Command.exec`; invariant over the schedule: every process is where it would be alone, and the files it uses are as it would have left them; well-founded induction for fair schedules |
| C87 | the same, with commands that share their output | invariant for one process among arbitrary others; counterexample by evaluation in the kernel; general theorem on what an overlap leaves |
| C88 | the accepted format as a grammar without readers, positions or loops (`SpecGrammar.lean`), tolerances explicit | a calculus of exact parsers: each parser is shown to succeed exactly on the words of its grammar rule, by induction over the loops; then the search for the frame, including a block that starts before the 16 MiB window |
| C89 | end record, block and regions of a file as predicates on its bytes (`SpecAnatomy.lean`) | composition of the search for the record, the exact decoder (C88) and the digest; wrapped sizes of release builds included |
| C90 | the verify command and `verify_with_roots` on top of C89 | composition of C35 with C89; uniqueness of record and block |
| C91 | `get_raw_module` against `Strips` (`SpecAnatomy.lean`) | composition of C89 with the slices that are copied |
| C92 | `Signable::write` and the sign command against `Source` and `Inserted` | composition of C89, C91 and the signer; every failing case excluded |
| C93 | sign command followed by verify command on any file | C92 gives the output, C35 its verdict, equality of tree digests its regions up to a collision |
| C94 | histories of sign commands as an inductive relation on files | the first output is an archive with a block (C92), induction over the history with C25 for signed archives |
| C95 | files described by bytes (SpecAnatomy), histories of library writes (`SignedWith`) | every file on which writing succeeds is an archive without a block followed by the block (`write_archive`), then induction over the history |
| C96 | the processes of `Model/Proc.lean` on a system in which each operation may fail (`SpecFault.lean`) | a predicate on processes, closed under sequencing, saying that after a failure only errors can follow; for verify the set of results of a process whose reads may fail, and monotonicity of the verdict in the digests that are known |
| C97 | ELF files described by their bytes (`SpecElfAnatomy.lean`: header and section header fields at their positions, names, selection) | the parser succeeds exactly on these files (`decodeElf_iff`), the text test is exactly "some characters encode to it" (`utf8_of_valid`), sorting is the only stable sorting (`stablySorted_iff`), then C62 and C88 |
| C98 | what is put into the file (`Plan`) and the whole result (`withTable`), as byte strings (`SpecElfAnatomy.lean`) | `write_plan`: the model's writer runs through exactly these cases; patching the ELF header equals writing it anew (`header_patch`) |
| C99 | as C98; `SignableElf` is the condition under which a block is found again | decoding `withTable` (`first_view`, `again_view`), finding the name in the grown table (`strtab_ksu`), induction over the history |
| C100 | as C98; `KeepsNames` is the condition under which names keep their meaning | names in the grown table (`strtab_kept`), pointwise comparison of the section tables (`first_other`, `again_other`), then C97, C98, C99 and the signer's own correctness (C63) |
| C101 | the derived `Serialize`/`Deserialize` implementations of all block structures over serde's data model (`Model/Serde.lean`); `Storable` (`SpecSerde.lean`) is the condition | one equivalence per structure, by induction over the lists; the grammar (C88) for what is read |
| C102 | the verifiers with one reading of the clock per chain (`Model/Clock.lean`), the readings being arbitrary | the per-signer lemmas of C27 and C55 at the signer's own time; comparison of both models position by position |
| C103 | `Model/Proc.lean` with events between the operations: other programs' changes and failures (`SpecWorld.lean`) | induction on the events: simulation of the run alone when inputs and output are untouched; frame property; the set of results a process can get from the contents seen (`CanGet`), inverted through the verify command; witnesses by evaluation in the kernel |
| C104 | the verifiers and trust stores of `Model/Verifier.lean`; `apart` (`SpecTrust.lean`) erases what concerns chains | congruence of every loop and of the conclusion under `apart`; monotonicity of `Trusted` through the characterisations of C27, C33 and C55 |
| C105 | the output of the verify command (`Model/CliVerify.lean`); one rule per line in `SpecLines.lean` | case analysis of the verdicts: each part prints exactly the lines of its kind whose rule applies; infix of the output for the lines of one signer |
| C106 | the decoder, module functions and verify command without the feature `elf` (`Model/NoElf.lean`), beside the full ones; `SpecNoElf.lean` says when two readings are the same | simulation (`Sides`) through the pair parser, the loop and both searches; the verdicts by induction on the pairs; witnesses by evaluation in the kernel |
| C107 | the output of the info command (`Model/CliInfo.lean`); one rule per line in `SpecInfo.lean` | membership in each part of the output as a disjunction over the lines of that part; the stamp's lines as a suffix |
| C108 | the reading side, the digest, `get_raw_module` and the verify command with a 32-bit `usize` (`Model/Narrow.lean`), beside the full ones; `SpecNarrow.lean` says when a reading takes every size as it is written | simulation (`Twin`) of the 64-bit reader by the 32-bit one through the parsers, the pair loop and both searches, with the conditions under which the converse holds; the verdicts from the equality of blocks; witnesses by evaluation in the kernel |
| C109 | the output and the effect of the sign command (`Model/CliOut.lean`); one rule per line in `SpecOut.lean` | the run is the one of `Model/Program.lean` (`C109_same_run`); membership in each part of the output; the order as an invariant (`Ordered`) of each part |
| C110 | as C109, for the digest command with and without `--dump` | induction over the regions with the running total; the report as regions between lines of other kinds (`Report`) |
| C111 | `SignableFile` (`Model/CliDigest.lean`, `Model/Signable.lean`); `HasBlock` and `NoBlock` (`SpecHandle.lean`) say what a block of a file is, for each format | C89 and C97 for reading, C92 and C99 for writing; the first four bytes of the archive that is written; the witness by evaluation in the kernel |
| C112 | the sign, digest and info commands without the feature `elf` (`Model/NoElfCli.lean`), beside the full ones | the offsets, regions, digests and sources of C106, equal unless the block is read by one build only; the info lines by induction on the pairs; witness by evaluation in the kernel |
| C113 | the search, the parsers, the digests, verification and the verify, info and digest commands in both profiles; `Torn` (`SpecTorn.lean`) describes a block with two different size fields by its bytes | the panic of the frame parser characterised first; the last magic of both searches is unique; everything else from C89 and the exact panic conditions of the digest |
| C114 | the signer, writing and the sign command in both profiles | a relation (`Strict`) between the results of both builds, carried through every step of the signer; C89, C98 and C113 for the rest; witness by evaluation in the kernel |
| C115 | the whole program (`Model/Program.lean`) in both profiles; `SpecExit.lean` says what a damaged module is and when a block has too little room | C113 and C114 lifted through `Command.exec`; the output path matters only for ELF files |
| C116 | the reading of the declared arguments (`Model/Args.lean`), with clap's rules written as a scan from left to right; `SpecArgs.lean` has the grammar: tables of options, parts of a line and how they are written | the scan taken apart into parts (`decomp`), what reading a part adds, both grammars as equivalences; spelling out every command for the converse |
| C117 | `runMain` (`Model/Args.lean`): a command line from its text to its exit status and the files afterwards; `SpecSession.lean`: what an accepted module is, sessions of lines | C116 composed with C80 and C79; the two spellings of a verify line by going through their parts |
| C118 | the features decide which subcommands there are and whether there is ELF support: `Model/Builds.lean` has `parse_args`, `execute` and `main` for every choice; `SpecBuilds.lean` says what a build lacks | the command line by cases on its first words; C106 and C112 lifted through every command; C117 for the session, with a frame lemma over lines in different builds |
| C119 | `Model/Messages.lean`: the `format!` strings of every error `get_signing_block` can return, with the prefixes put in front of them; numbers may be any digits | which errors the decoder returns, by a rule for every parser combinator; then: no fixed text of another error has a capital M, and digits have none; C119_unsigned through the characterisation of unsigned files in C77 |
| C120 | `Model/NarrowSign.lean`: regions, source of the bytes, writing and the sign command over the 32-bit reading functions of `Model/Narrow.lean`; `fs::read` and `get_raw_module` fail from 2^31 bytes on | step by step equality with the 64-bit functions on files 64-bit machines can read (C108 lifted, wrapped subtractions compared); C93 and C108 for verifying crosswise; examples: a file only 32-bit machines sign, an archive with 2 GiB of entries |
| C121 | `Model/Text.lean`: the wording of every line of verify and info, with headings and the empty lines, and what `main` and `with_builtin` add on standard error; texts of certificate fields and of libraries are parameters; `SpecText.lean`: a line of a text | a text is cut into lines in one way only if the parts have no line breaks; every kind of line has a table of beginnings, and the kinds that can be worded like a given line are computed from the table; then C64, C83, C84, C105 for the meaning |
| C122 | the two functions, `DigestContext` and the `has_` methods in `Model/Verifier.lean`; `SpecQuick.lean`: what was added last, signers that are accepted or not refuted | the context is a map (induction over the calls); C27 for the flags; the signature loop by induction for `Ok`; stores through `StoreHistory` (C33) |
| C123 | `Model/SignText.lean`: the wording of every line of sign, and what `main` adds on standard error; the names of the files are parameters | how a line begins tells its kind (a table of beginnings none of which begins another), its end tells regions from algorithms, and the last `@` separates the name of a region from its numbers; names of regions are among the sections asked for (or fixed); then C109 |
| C124 | `Model/DigestText.lean`: the wording of every line of digest, on which stream it goes, and what `main` adds; the names of the files are parameters | standard output: only the line of the digest goes there, and its characters are those of hex or base64; standard error: a table of beginnings as for C123, the last `@` of a region's line; names of regions as for C123; then C110 |
| C125 | the schedules of `Model/Digest.lean` (how much each read delivers); `SpecReads.lean`: cuts, the digest over given pieces | the pieces of a schedule are a cut and every cut has a schedule (induction over the reads); they are the pieces of 1 MiB exactly if every read fills the buffer; equal digests give equal lists of pieces (hashes have fixed length), and the end record fixes the length of the entries |
| C126 | `Model/NoElf.lean` and `Model/NoElfCli.lean` (block, digest, strip, sign and verify without the feature elf); `SpecNoElfAnatomy.lean`: the grammar without section lists | the parser is exact for the grammar (induction over the pairs); scan, frame and end record as for C86 to C93; the output of signing has a block both builds read alike, so C93 applies to it; the two readings are compared pair by pair |
| C127 | `Model/BlockText.lean`: `Display` of blocks and values; `SpecBlockText.lean`: the outline of a value; `IsLine` of `SpecText.lean` | the beginnings of the lines are no prefixes of each other; decimal and hex numbers are read back; digits contain no comma, space or colon, so the numbers are found; then C89 for the position |
| C128 | `signRun` of `Model/CliOut.lean`, the signers of `Model/Signer.lean`, `CredPaths.load`; `SpecSecret.lean`: keys that show the same, runs that look the same | the message to sign is a function of certificates, digests and attributes; the signers, the block and the run are compared step by step for two sets of credentials |
| C129 | `Model/NarrowTell.lean`: digest, dump and info with 32-bit `usize`; `SpecNarrow.lean`: sizes as written | offsets and digests agree (C108); the sizes of the regions agree unless they wrap, and a wrapped region is longer than the file on both; the reader of info agrees by the twin lemma behind C108 |
| C130 | `digestModule` of `Model/Digest.lean` with arbitrary `FileOffsets`; `SpecOffsets.lean`: extents, reversed offsets | case distinction on the three subtractions; a wrapped size exceeds every file |
| C131 | the sign command of `Model/Cli.lean` and its ELF branch, repeated any number of times (`ElfSignings`, `Signings`) | induction over the history: a written block lies behind the header and behind everything earlier, and later signings keep it (C98, C46); modules by C92 and C94 |
| C132 | `ElfFile.writeWithSignature` of `Model/Elf.lean`, in terms of the file's own headers (`ElfView`) | lengths of the parts that C98 says are written; the new table is as long as the old one, which lies in the file, or one entry longer |
| C133 | `ElfFile.getSigningBlock`, `resolvedSections`, `digest` of `Model/Elf.lean`; `SpecUnread.lean`: the bytes that are looked at | the changed file says the same as the file (`ElfView`), except for header fields nothing depends on; then C97 |
| C134 | `ModuleSigner.sign`, `cliSignModule`, `cliVerify`; the grammar of C88; `SpecRoles.lean`: the stamp's bytes in a V2 pair | the bytes of a stamp are a word of the V2 grammar with the same signed bytes, then C35; conversely decoded and proper parts are read in step and the four zero bytes remain |
| C135 | `cliVerify`, the grammar of C88; `SpecMix.lean`: the same archive with different blocks | the digests do not depend on the block; C35 for both blocks; the conditions on a signer do not mention the others |

A property that is false of the code is kept in `properties.jsonl` in the form a user would rely on; the model then contains a theorem with the negation (for all inputs of a described kind, or with a concrete witness), and theorems for the part that holds. Its status in `MANIFEST.json` is "partial".

## Where the code does not do what a user relies on

One line for each property with status "partial": what fails and what is proved instead. The theorems named there are in `lean/Verif/Props`.

* **C04** Padding constructor never panics and fails only for documented reasons. False in dev builds (C04_dev_panics: error message underflows). Exact outcome in both profiles and the full claim for release builds are proved.
* **C05** Writer limit and reader limit agree. False for the ELF path (C05_elf_path_unreadable). Proved for SigningBlock::new/new_with_padding.
* **C06** Parsing untrusted bytes terminates and never panics. False in dev builds (C06_dev_panics_*: unsigned underflow and debug_assert on untrusted sizes). Release builds: full claim proved for from_u8 and from_reader. Dev builds: outcome equals release except for a characterised set of panics. C113 gives the exact condition of the panics.
* **C08** Signatures are checked over the bytes that are in the file. False (C08_signed_bytes_malleable, C08_checked_bytes_not_in_file): inner sizes are re-serialised, not kept. Proved for blocks written with the constructors.
* **C10** Memory used while parsing and verifying is bounded by the input. False (C10_reserve_unbounded, C10_reserialise_unbounded). Proved for the data a decoded block holds.
* **C15** Unsigned modules are reported as unsigned. False (C15_nested_block_returned): a block nested in the entries is taken for the module's own. Proved when the entries carry no magic; for every file the returned block is framed, before the directory and carries the last magic.
* **C16** Tamper evidence of the module digest. Full claim in dev builds; in any build for files whose directory does not start beyond the end record. False in release builds otherwise (C16_release_collision).
* **C17** Digest does not depend on the signing block. False for entries with a nested block (C17_nested_block_differs). Proved for entries without the magic, and between any two signed versions.
* **C19** Digest does not depend on how reads are split. False for readers with short reads (C19_short_reads_change_digest). Proved for readers that fill the buffer. C125 says exactly what other readers get.
* **C20** The central directory offset is authenticated. False (C20_offset_not_authenticated). What holds is that the block ends before the offset with no further magic between.
* **C22** Stripping undoes signing. Proved for entries without the magic, and for every archive that is already signed. C95_strip_after_sign is the exact condition, for every file: stripping gives the file back if and only if nothing in it looks like a block and nothing follows its end record; false for archives whose entries contain a block.
* **C24** Signing preserves the archive. False for nested blocks (C24_nested_block_removed: entry bytes are lost) and near 4 GiB (C24_offset_truncated: success with a wrong offset). Proved otherwise. C92 says for every file what signing writes.
* **C25** Sign then verify succeeds. False when the entries contain a signing block that is followed by further entry bytes: C25_nested_block shows such a signed file can only verify after a hash collision. Proved for every other module the sign command accepts, including already signed ones. C93 is the exact statement for every module, C94 the one for modules signed twice or more.
* **C26** Files with data after the end record can be signed verifiably. False for every module with trailing bytes, up to hash collisions (C26_trailing_bytes_lost). Proved without trailing bytes. C93 covers trailing bytes exactly.
* **C28** signature_valid means some signature was checked. False (C28_no_signature_is_signature_valid): a signer or stamp without signatures is reported signature_valid. Proved for signers with signatures; digest_valid in addition implies that there is one.
* **C34** An overall valid verdict requires a signature. False (C34_nothing_signed_is_valid, C34_empty_block_module_is_valid): inserting an empty block into any archive gives a valid verdict. The exact meaning of is_valid is proved.
* **C41** Certificate chains load in order. False for a bundle with a block that does not decode behind the first certificate: the whole chain is silently dropped (C41_broken_block_drops_chain, for all such bundles). Proved for all bundles whose blocks decode, any number and kind; and for PKCS#12.
* **C43** Rewriting a signed module does not corrupt it. False: writing a signed module opened with Module::new replaces the directory (C43_rewrite_corrupts); a second sign_v2 fails or signs another digest (C43_second_sign_fails, C43_second_digest_differs). Proved for one sign_v2 on a raw module.
* **C46** Signing an ELF file does not change its signed sections. The byte part (only appends; only e_shoff, e_shentsize and e_shnum change) is proved for all files. The digest part is proved for ordinary section tables (ElfOk), sections within the file and not the section name table, and 32-bit outputs below 4 GiB; C46_name_table_digest_changes and C46_section_past_end_digest_changes show it is false in general. C98 gives the output byte for byte for every file, C100 the condition under which digests stay.
* **C47** ELF signing block reads back and is replaced on re-sign. Proved for ordinary section tables (ElfOk) and all histories, 32-bit outputs below 4 GiB; C47_dangling_name, C47_open_table_renames, C47_name_table_replaced and C47_address_overflow show what goes wrong otherwise. C98-C100 say more, without the assumption on the tables.
* **C48** ELF section info round-trips. False for section names of 65536 bytes or more, whose length is cut to 16 bits (C48_long_name_fails, for all such names). Proved for all lists with shorter names.
* **C52** A corrupted block is never treated as unsigned. False both ways: a module whose entries are shorter than 24 bytes is refused as corrupted (C52_small_module_refused), a magic within the first 8 bytes is taken for unsigned (C52_leading_magic). Proved for all other files.
* **C54** Verification concerns one state of the file. False for a file that changes between the reads (C54_race). What holds for a file that changes but keeps its length while it is read: from which of the openings the block, the offsets and the three sections come (C54_block_across, C54_digest_across), and what acceptance then means (C54_changing_partial). Proved for a file that does not change: in both builds (C54_stable_any_build_partial), with the division into entries, block, directory and end record in development builds (C54_stable_file_partial).
* **C58** Verification always reports a verdict on untrusted files. False in development builds (C58_dev_panics); proved for release builds, and the panics of development builds are characterised. C113 and C115 give the exact conditions of the panics.
* **C59** A failing sign command leaves the files alone. False for modules signed in place: the input is emptied before it is read again and the command fails (C59_in_place_destroys, C59_in_place_never_works, for all modules); and in release builds for a bad directory offset (C59_bad_directory). Proved for another output path for the modules of C25 and for the ELF files of C61; ELF files may be signed in place.
* **C60** The info command shows the signature that counts. False when another magic comes behind the block, for example a block in the archive comment (C60_block_in_comment, for all such archives). Proved otherwise, within the 16 MiB the search covers; that the content is never called verified is proved for all files.
* **C61** Signing an ELF file succeeds and never panics. False: the alignment of the section name table is taken from the file and may exceed what a buffer can hold (C61_huge_alignment_panics). Proved for every ELF file below 4 GiB with a name table aligned to less than 4 GiB and fewer than 65535 sections: signing returns a file. C98 says for every file when signing succeeds and what it writes.
* **C62** Changing the signed sections of an ELF file is noticed. Proved: equal digests mean equal section contents (one by one if their lengths agree, concatenated otherwise) or an explicit collision. False for names (C62_names_not_covered), section boundaries at multiples of 1 MiB (C62_boundaries_not_covered) and everything outside the sections such as the entry point (C62_entry_not_covered).
* **C63** What the sign command makes of an ELF file verifies. Proved for ordinary section tables (ElfOk), sections within the file other than the name table, 32-bit outputs below 4 GiB, outputs goblin accepts, and blocks of at most 16392 bytes. False when the section record, added after the limit check, makes the block larger: the output is then unreadable (C63_oversize_unreadable, C63_oversize_happens). See C99 for the reading side without the ordinary-table assumption.
* **C64** The verify command accepts what the sign command wrote. False for ELF files, which the verify command treats as modules (C64_without_record for all files without an end record, C64_signed_elf_refused). Proved for the modules of C25.
* **C66** Only credentials that belong together are accepted. False: key and certificate are never compared (C66_certificate_not_read, C66_mismatch_accepted), and then nothing accepts the output (C66_mismatch_never_verifies, for all such credentials). Proved for credentials that belong together.
* **C67** Credential options are honoured. False for --stamp-cert or --stamp-password without a stamp key: silently ignored (C67_stamp_options_ignored). Everything else proved for all combinations of options.
* **C68** A stamp is trusted where the same credentials are trusted. False: stamps never carry the chain (C68_chain_ignored), so a stamp that needs an intermediate is refused (C68_intermediates_missing for all such credentials, C68_same_credentials_refused). Proved for certificates trusted without intermediates.
* **C69** Password errors mean what they say. False for keys of unsupported kind given with a password: reported as invalid password (C69_unsupported_key_blames_password). The rest is proved for all texts and passwords.
* **C70** The digest command prints the digest that signing stores. Proved for both formats wherever both commands succeed. False in dev builds when the section sizes add up to 2^64 or more: the digest command panics on its total although signing works with the same regions (C70_total_overflow).
* **C71** Dumping regions never damages files. False if the output is the input path: the file is emptied and the dump fails (C71_in_place_destroys, C71_in_place_never_works); and a section past the end is noticed only after the output was overwritten (C71_past_end). Proved: every failure before the dump starts leaves the output untouched.
* **C73** The verification report identifies each signer. Proved for all blocks except the signer number stored in the entries, which restarts with every V2 block (C73_numbers_restart, for all blocks with two V2 blocks); with a single V2 block the numbers are right.
* **C75** Every flag that is not set is explained, and every warning is true. Every warning is proved true. False that every unset flag is explained: signers without certificate or without signatures (C75_unexplained). Proved for all other V2 signers and for source stamps with a certificate.
* **C76** Failures are attributed to the signers that failed. One failure per failing signer is proved. The printed numbers are false when a failing signer follows one that does not fail (C76_wrong_signer_named, for all such blocks); proved when the failing signers come first.
* **C78** A signature for one file format is not accepted for the other. False: digests carry no format (C78_digests_not_separated), so the block of an ELF file whose sections hold an archive opens that archive (C78_elf_signature_opens_module for all such files, C78_confusion_happens concretely). Proved: nothing but a module with the same concatenated content is ever opened.
* **C80** The exit status tells what happened. What status 0 means is proved for sign, verify and digest, for every file system. Status 0 or 1 is proved for release builds except that signing an ELF file may panic while the output is put together (C61); in dev builds damaged files make the program panic (C06, C58), and an example shows status 101. C115 says exactly when the status is 101, in both builds.
* **C81** An interrupted signing leaves no file that verifies. False for modules whose entries start with another signed module (C81_module_in_front for all of them, C81_interrupted_accepted concretely: stopped right behind it, the output is that module). Proved: without any assumption, in every build, if the end record is the only place with its signature (C81_cut_off_refused_partial); up to a forged signature or a hash collision in every build, for every module whose end record is its last part and for any other uses of the keys (C81_cut_off_any_build_partial; at the level of the command C81_stopped_signing_partial; both name the one exception, a release build with exactly the end record missing and another one inside the block); in dev builds without the exception (C81_stopped_signing_dev); for archives whose parts can be told apart (C81_cut_off_module_partial).
* **C82** Edited blocks read back. Proved for all edits within the size limit. recalculate_size does not check the limit: beyond it the block is refused by the reader (C82_oversize_unreadable, for all such edits), and padding is not renewed (C82_padding_not_renewed).
* **C83** The output of the verify command can be believed. Proved for all files except the line about the V2 signature, which is printed before trust is looked at and even for a signer without any signature (C83_passed_without_signature for all such files); C83_v2_passed_line says exactly when it is printed.
* **C84** The info command tells the truth about the block. Proved for all files except the last sentence: a stamp that does not verify is listed and otherwise not mentioned (C84_bad_stamp_not_mentioned, for all such files). C84_first_signer_shown: with several V2 signers only the certificates of the first one are shown.
* **C87** Exit status 0 and the output while other commands run. False as stated: outputs are created in place, without a lock, a temporary file and a rename. Two signings into the same file can both exit with 0 and leave a mixture that is refused (C87_both_succeed_output_refused); C87_overlap says for all commands and all moments what is left when one runs within another. Proved if no other command writes the output or what is read, whatever the others do to each other (C87_exclusive_partial).
* **C96** Input and output errors are never taken for success. Proved, except that the verify command does not report every error (C96_verify_hides_an_error): an error while a digest is computed is shown only with --verbose and the digest is left out, so C96_errors_are_reported_partial is about the other commands. C96_success_means_success, which includes verify, shows that the hidden error never changes an exit status other than 1.

## Trusted base

* Lean 4.33.0's kernel; axioms `propext`, `Classical.choice`, `Quot.sound` at most (list at the end; no axioms
  of our own, no `sorry`, no `native_decide`, no `bv_decide`). Concrete witnesses use `decide +kernel`, which
  is checked by the kernel alone.
* The reading of the Rust source recorded in the comments of `Model/*.lean`, including std's `Vec`, slices,
  `Take`, `BufReader`, `read_exact`, `read_to_end`, `Seek`, `to_le_bytes`, `String::from_utf8`, `str::trim`,
  `HashMap`, `sort_by_key` (stable). All cargo features are taken to be enabled, except in
  `Model/NoElf.lean`, `Model/NoElfCli.lean` (the build without `elf`) and `Model/Builds.lean` (the program in all builds); the fallbacks for missing
  features in `verifier.rs` are dead code then.
* External code, as parameters with arbitrary behaviour unless a theorem states a hypothesis:
  * `Env`: SHA-256, SHA-512, P-256/P-384 verify, sign and public key DER (crates sha2, p256, p384), subject
    public key, issuer and subject of a certificate (x509-cert), trust anchors, end entity parsing and path
    building (rustls-webpki). They are functions: signing is deterministic (RFC 6979), path building depends
    on roots, leaf, intermediates and time only.
  * `KeyEnv`: decoders of PKCS#8, SEC1, encrypted PKCS#8, PEM texts and PKCS#12. A PEM text is a list of
    blocks, each decodable or not; `pem::parse_many` needs all, `pem::parse` the first.
  * `acc`: whether goblin accepts the parts of an ELF file the code never uses (program headers, dynamic
    section, symbols, relocations, versions). The ELF header, section headers and the section name table are
    decoded in the model, for both classes and byte orders, following the ELF specification, because
    goblin's source is not available here.
  * The base64 crate's standard engine is modelled as RFC 4648 with padding; `{:02x}` as two lower case digits.
  * `clone_private_key` (encode and decode again) is the identity.
  * The clock is read once per command (`now`); the code reads it for every chain, which is the subject of C102.
* Allocation: the model has no memory limit, except that `Vec::resize` and `Vec::with_capacity` beyond
  `isize::MAX` panic where the size comes from a file.
* File system (`Model/Program.lean`): equal paths are equal files and different paths different files (no
  links, no other spellings, no directories); a path can be created or not (`creatable`); files change only
  through the command that runs; writing succeeds (no full disk) unless the process is stopped, in which case
  a prefix of the data is in the file. A file opened with `File::create` is empty from then on, so a dump or
  a signing in place reads an empty file. In release builds a seek with a wrapped (huge) offset fails like a
  read past the end.
* Failing operations (`SpecFault.lean`): a failed read gives the caller an error and no bytes; a failed creation changes
  nothing; after a failed write the output has any content and the command ends with the error (read from the `?` behind
  every `write_all` and `flush`); printing to the terminal does not fail.
* Processes (`Model/Proc.lean`): one operation is a read of a whole file, the creation (truncation) of a file, or one
  `write` at the position reached; operations of different processes are atomic with respect to each other. Reading
  the length of a file, its parts and its end through one handle is one read. Where the code opens a file again, or reads
  it only after other operations, the model reads it again, so that changes in between are seen. Nothing is renamed or
  deleted. How `BufWriter` and the system cut the output into writes is a parameter (any cut whose pieces are the output).
* Printed text: what the commands print is a list of typed lines, what `digest` prints on standard output is exact. The wording of verify
  and info is in `Model/Text.lean` (C121): the `Debug` texts of certificate fields, names of files and messages of libraries are
  parameters, and C121 assumes that they have no line breaks; the message of the error a command ends with is any text. The wording of
  sign is in `Model/SignText.lean` (C123), that of digest in `Model/DigestText.lean` (C124). The texts of the errors of
  `get_signing_block` are in `Model/Messages.lean` (C119), with any digits for the numbers in them; texts of system errors are not.
* 32-bit machines (`Model/Narrow.lean`, `Model/NarrowSign.lean`, `Model/NarrowTell.lean`): `usize` arithmetic modulo 2^32, vectors below 2^31 bytes. When signing,
  key, certificates and password are assumed to take less than 1 GiB together, so that making the block is as on 64 bits.

### Modelled

`algorithms.rs`, `common.rs` (encoders, decoders, digests, attributes), `scheme_v2.rs`, `source_stamp.rs`,
`elf_section_info.rs`, `signing_block/mod.rs`, `utils.rs`, `module/{mod,zip,digest}.rs`, `elf/{mod,digest}.rs`,
`signable.rs`, `signer.rs`, `verifier.rs`, `keystore.rs`, `cli/{mod,sign,verify,info,digest,cert}.rs`, `main.rs`.

### Not modelled

* The text clap prints, arguments that are not Unicode, and clap itself: `Model/Args.lean` models how clap 4.5 reads the declared arguments
  (`cli/mod.rs: parse_args`), and that it does is assumed. The other claims about the program start from parsed arguments.
* `Display`/`Debug` implementations other than those of `Algorithms`, `VerifyError`, `SigningBlock` and `ValueSigningBlock`; the text formats behind serde (the derived implementations are modelled over serde's data model, C101).
* The fingerprint helpers
  `sha256_cert`, `md5_cert`, `sha1_cert` in `common.rs`.
* The implementations of the trait `Signable` that only forward to modelled functions; its `verify` always
  fails with "not implemented".
* Cryptography, X.509, webpki and goblin internals, see above. File-system errors other than a missing file,
  a path that cannot be created, and reading past the end.

## Axioms of each theorem

From `#print axioms`, for every theorem named in `MANIFEST.json`. No theorem depends on anything else.

**No axioms** (3): C106_format_differs, C10_reserve_unbounded, C130_end_ignored.

**`propext`** (39): C06_dev_panics_from_reader, C06_dev_panics_from_u8, C104_chain_flag_falls, C106_accepts_more, C106_same_verdict, C107_no_block, C107_stamp_last, C108_accepts_more, C108_overflow, C108_reserve, C111_taken_for_elf, C11_algorithm_ids, C128_clock, C128_untimed, C129_info_more, C129_info_size, C19_short_reads_change_digest, C26_trailing_bytes_witness, C37_no_configuration, C40_key_from_der, C40_key_from_pem, C40_loaded_credentials_match, C41_broken_block_drops_chain, C41_chain_from_p12, C47_address_overflow, C47_dangling_name, C47_name_table_replaced, C59_bad_directory, C59_elf_in_place, C65_sections_of_module, C67_container_first, C67_load_failure_untouched, C67_missing_options, C67_signer_from_options_partial, C67_stamp_options_ignored, C68_chain_ignored, C69_password_checked_partial, C69_unsupported_key_blames_password, C83_result.

**`Quot.sound`, `propext`** (76): C01_alias_not_preserved, C02_layout_new, C02_layout_recalculate, C05_writer_limit_partial, C08_checked_bytes_not_in_file, C08_signed_bytes_malleable, C101_other_fields, C102_still, C102_unchanged, C104_only_chains, C104_same_roots, C104_unusable_root, C105_early, C105_signer_group, C106_same_format, C107_lines, C109_shown, C10_reserialise_unbounded, C111_format, C112_signs_more, C120_large, C122_only_v2, C128_added, C128_command, C128_sign, C128_source, C129_info_panic, C130_builds, C130_digest, C130_elf_empty, C130_short, C16_release_collision, C19_full_reads_agree_partial, C33_trust_from_roots, C37_pairs_recorded, C37_pairs_recorded_stamp, C37_required_algorithms, C37_signing_succeeds, C39_defaults_agree, C39_stamp_signers_agree, C40_key_loads, C40_key_recorded, C40_key_recorded_stamp, C40_sign_iff, C41_broken_first, C41_certificate_from_der, C44_order_irrelevant, C45_resolved, C45_resolves_iff, C46_section_past_end_digest_changes, C48_long_name_fails, C52_leading_magic, C54_race, C55_only_first_stamp, C56_unrelated_blocks, C57_chain_structure, C59_in_place_destroys, C59_in_place_never_works, C62_boundaries_not_covered, C62_digest_of_contents, C62_tamper_evident_partial, C66_certificate_not_read, C69_password_ignored, C69_password_required, C71_past_end, C74_stamp_builder, C77_record_in_block, C81_module_in_front, C82_edit_is_rebuild, C84_result, C85_elf, C85_elf_unsigned, C85_module, C85_raw, C97_selection_unique, C98_plan_unique.

**`Classical.choice`, `Quot.sound`, `propext`** (479): C01_roundtrip_new, C01_roundtrip_new_with_padding, C02_frame_fields, C02_layout_new_with_padding, C03_padding_aligned, C03_padding_content, C04_dev_panics, C04_exact_outcome_partial, C04_release_never_panics_partial, C05_elf_path_unreadable, C06_from_reader_dev_partial, C06_from_reader_release_partial, C06_from_u8_dev_partial, C06_from_u8_release_partial, C07_from_reader, C07_from_u8, C08_constructor_built_partial, C09_raw_preserved, C09_raw_preserved_reader, C09_raw_written_and_read, C100_command_reads_back, C100_command_reads_back, C100_digest_kept, C100_digest_kept, C100_end_of_name_changes, C100_selection_kept, C100_selection_kept, C100_sign_then_verify, C100_sign_then_verify, C101_any_order, C101_built, C101_document, C101_injective, C101_loaded_again, C101_one_block, C101_read_from_bytes, C101_read_from_file, C101_round_trip, C101_same_bytes_and_verdict, C101_sizes_unchecked, C101_stored, C102_no_single_moment, C102_stamp_valid, C102_v2_valid, C103_ends, C103_only_output, C103_seen, C103_sign_race, C103_success_means_success, C103_undisturbed, C103_verify_evidence, C103_verify_mixes, C104_more_roots, C104_more_roots_module, C105_lines, C106_command, C106_reads_as_much, C106_reads_more_only, C106_same_digest, C106_same_source, C106_unsigned, C108_bulky, C108_command, C108_exact, C108_only_narrow_digest, C108_only_narrow_raw, C108_out_of_memory, C108_prefix, C108_same_digest, C108_same_raw, C108_unsigned, C109_format, C109_lines, C109_order, C109_same_run, C109_size, C109_success, C10_stored_bounded_partial, C10_stored_bounded_reader_partial, C110_dump_lines, C110_dump_same_run, C110_lines, C110_order, C110_same_run, C111_block, C111_elf_again, C111_module_again, C111_stays_module, C111_unsigned, C112_digest, C112_elf_refused, C112_info, C112_sign, C113_block, C113_digest, C113_digest_command, C113_from_reader, C113_from_u8, C113_info, C113_info_exit, C113_info_exit, C113_regions, C113_same, C113_verify, C113_verify_command, C113_verify_exit, C113_verify_exit, C113_verify_full, C114_sign_elf, C114_sign_module, C114_signer, C114_write, C115_digest, C115_dump, C115_padding, C115_release, C115_sign, C115_statuses, C116_help, C116_no_algorithm, C116_one_meaning, C116_run, C116_sayable, C116_section_takes_all, C116_status, C116_unknown_option, C116_value_follows, C117_changes, C117_session, C117_sign_line, C117_sign_then_verify, C117_verify_line, C117_verify_name, C117_verify_safe, C118_changes, C118_elf_refused, C118_missing, C118_no_less, C118_same, C118_sign_then_verify, C118_without_elf, C119_raw, C119_unsigned, C119_words, C11_display, C11_unknown_text, C120_crosswise, C120_emptied, C120_equal, C120_narrow, C120_signs_more, C120_wide, C121_certificates, C121_forged_name, C121_info, C121_info_trusted, C121_other_lines, C121_overall_flags, C121_passed, C121_result, C121_signer_flags, C121_some_text, C122_accepted, C122_builtin, C122_context, C122_has, C122_ok, C123_determined, C123_forged_name, C123_lines, C123_names, C123_numbers, C123_steps, C123_success, C124_dump_stderr, C124_dump_stdout, C124_failure, C124_forged_name, C124_stderr, C124_stdout, C125_filling, C125_possible, C125_short, C125_tamper_evident, C126_accepted, C126_block, C126_digest, C126_missing, C126_refused, C126_sign, C126_sign_command, C126_strip, C126_two_readings, C126_unique, C126_verify_command, C127_module, C127_numbers, C127_same_text, C127_same_value, C127_values, C128_block, C129_digest, C129_digest_more, C129_digest_narrow, C129_digest_wide, C129_dump, C129_dump_narrow, C129_info, C129_info_narrow, C129_info_none, C12_no_record_missed, C12_record_is_real, C130_elf, C130_panic, C131_elf_growth, C131_elf_history, C131_elf_once, C131_module_history, C131_module_once, C132_amplified, C132_space, C133_entry_point, C133_rest_is_free, C134_signature_no_stamp, C134_stamp_as_signature, C135_library, C135_put_together, C135_signer_by_signer, C135_taken_away, C13_record_found, C14_block_found, C15_last_magic_partial, C15_nested_block_returned, C15_unsigned_partial, C16_tamper_evident_dev, C16_tamper_evident_partial, C17_digest_unchanged_by_signing_partial, C17_nested_block_differs, C17_signed_versions_agree, C18_digest_covers_regions, C18_regions_partition, C18_regions_partition_dev, C20_block_before_offset_partial, C20_offset_not_authenticated, C21_any_module, C21_reads_back, C21_resigned_reads_back, C21_signed_reads_back, C21_spurious_record, C22_strip_after_sign_partial, C22_strip_signed, C23_history_exists, C23_resign_replaces_partial, C24_nested_block_removed, C24_offset_truncated, C24_sign_signed, C24_sign_unsigned_partial, C25_nested_block, C25_sign_command, C25_sign_then_verify_partial, C26_no_trailing_bytes_partial, C26_trailing_bytes_lost, C27_valid_v2_verdict, C28_no_signature_is_signature_valid, C28_signature_valid_partial, C29_one_bad_signer, C30_no_context, C31_no_digest, C31_unknown_algorithms, C32_borrowed_certificate, C34_empty_block_module_is_valid, C34_nothing_signed_is_valid, C34_valid_means_verified_partial, C35_verify_command, C36_command_agrees_with_library, C37_output_shape, C37_signing_needs, C38_add_source_stamp, C38_applies, C40_never_mismatch, C41_chain_in_order_partial, C41_stored_in_order, C42_raw_workflow, C43_raw_write_partial, C43_rewrite_corrupts, C43_second_digest_differs, C43_second_digest_exists, C43_second_sign_fails, C44_same_offset_order, C45_data_kept, C45_selection, C45_set_sections, C46_bytes_kept, C46_digest_partial, C46_name_table_digest_changes, C46_outside_header, C47_history_partial, C47_open_table_renames, C47_other_headers_partial, C47_reads_back_partial, C47_section_count_partial, C47_section_holds_block_partial, C48_roundtrip_partial, C49_dump_command, C49_dump_elf, C49_dump_is_the_regions, C49_dump_module, C50_base64, C50_base64_injective, C50_command_format, C50_hex_digits, C50_hex_injective, C51_format_detection, C52_corrupted_refused_partial, C52_small_module_refused, C52_unsigned_accepted_partial, C53_context_is_a_map, C54_block_across, C54_changing_partial, C54_digest_across, C54_stable_any_build_partial, C54_stable_file_partial, C55_valid_stamp_verdict, C58_dev_panics, C58_dev_partial, C58_release_partial, C59_elf_untouched_partial, C59_module_untouched_partial, C60_block_in_comment, C60_info_claims, C60_info_shows_verified_block_partial, C60_verify_uses_shown_block_partial, C61_huge_alignment_panics, C61_signing_succeeds_partial, C62_entry_not_covered, C62_names_not_covered, C63_elf_sign_then_verify_partial, C63_oversize_happens, C63_oversize_unreadable, C64_accepted_is_module, C64_signed_elf_refused, C64_signed_module_accepted_partial, C64_without_record, C66_matching_verifies_partial, C66_mismatch_accepted, C66_mismatch_never_verifies, C68_direct_trust_partial, C68_intermediates_missing, C68_same_credentials_refused, C70_printed_is_signed_partial, C70_total_overflow, C71_in_place_destroys, C71_in_place_never_works, C71_output_untouched_partial, C72_dump_determines_digest, C73_flags_per_signer, C73_numbers_partial, C73_numbers_restart, C73_report_identifies_signers, C73_stamp_report, C74_new_configurations, C74_stamp_only, C74_v2_only, C74_with_source_stamp, C75_flags_explained_partial, C75_stamp_explained, C75_unexplained, C75_warnings_true, C76_numbers_partial, C76_one_failure_each, C76_wrong_signer_named, C77_accepted_is_accounted, C77_accepted_was_signed, C77_accepted_was_signed_dev, C77_accepted_was_signed_partial, C78_confusion_happens, C78_digests_not_separated, C78_elf_signature_opens_module, C78_only_same_content_partial, C79_any_order, C79_depends_on_inputs, C79_history_frame, C79_history_stable, C79_independent_commute, C79_last_signing_decides, C79_read_only, C79_repeat_after_stop, C79_resigning_chain_partial, C79_signed_again_accepted, C79_signed_stays_accepted, C79_signed_stays_accepted_partial, C79_writes_output, C80_digest_output, C80_release_status_partial, C80_sign_success, C80_verify_status, C81_cut_off_any_build_partial, C81_cut_off_module_partial, C81_cut_off_refused_partial, C81_interrupted_accepted, C81_stopped_signing_dev, C81_stopped_signing_partial, C82_edited_reads_back, C82_oversize_unreadable, C82_padding_not_renewed, C82_stale_sizes_never_read_back, C83_passed_without_signature, C83_stamp_passed_line, C83_success_line, C83_success_output, C83_v2_passed_line, C84_bad_stamp_not_mentioned, C84_first_signer_shown, C84_listing, C84_stamp_shown, C84_v2_flags, C85_damaged_counts_as_unsigned, C85_elf_signed, C85_sign_and_strip, C86_ended, C86_never_waits, C86_own_pace, C86_serial, C87_both_succeed_output_refused, C87_exclusive_partial, C87_overlap, C88_from_reader, C88_from_u8, C88_same_in_both_profiles, C88_unambiguous, C89_block, C89_digest, C89_end_record, C89_missing, C89_split, C89_unique, C90_profiles, C90_verify_command, C90_verify_with_roots, C91_strip, C92_sign, C92_sign_command, C93_accepted, C93_accepted_iff, C93_refused, C94_outputs_agree, C94_signed_again_accepted, C94_signing_again, C95_last_signing_counts, C95_last_signing_counts, C95_signing_again_succeeds, C95_signing_again_succeeds, C95_strip_after_sign, C95_strip_after_sign, C95_strip_then_sign, C96_ends, C96_errors_are_reported_partial, C96_only_output, C96_success_means_success, C96_verify_hides_an_error, C97_block, C97_digest, C97_parse, C97_sections, C97_text, C97_unique, C97_unsigned, C98_panics, C98_sign_command, C98_written, C99_another_section_found, C99_first_found, C99_first_opens, C99_history, C99_history, C99_ordinary, C99_reads_back, C99_reads_back, C99_signing_can_make_unreadable.
