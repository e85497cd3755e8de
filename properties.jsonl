{"id": "C01", "title": "Signing block encode/decode round-trip", "statement": "For every list of content blocks made with the public constructors (Digest::new, Certificates::new, Signer::new, SignatureSchemeV2::new, SourceStamp::new, ElfSectionInfo::new, RawData::new with an id that is not one of the three structured ids), if SigningBlock::new or SigningBlock::new_with_padding accepts it, then SigningBlock::from_u8 applied to the block's to_u8 bytes returns a block equal to it field for field (same sizes, same content in the same order, same magic, offsets 0..len), except that an algorithm given as Unknown with the id of a known one reads back as the known one.", "quantifier": "all content lists of any length built by the constructors, all digests, certificates, attributes, signatures and keys of any length, both constructors", "why_tests_cant": "The input space is unbounded nested lists of byte strings; tests only exercise a handful of shapes and sizes, and length-prefix bugs hide at particular sizes.", "anchors": ["src/signing_block/mod.rs: SigningBlock::{new,new_with_padding,to_u8,from_u8,parse_full_block,extract_values}, ValueSigningBlock::{parse,to_u8}", "src/common.rs", "src/signing_block/scheme_v2.rs", "src/signing_block/source_stamp.rs", "src/signing_block/elf_section_info.rs"]}
{"id": "C02", "title": "Serialised layout and size bookkeeping", "statement": "For every block accepted by SigningBlock::new / new_with_padding from constructor-built content, and for every such block after content_mut edits with constructor-built content followed by recalculate_size: to_u8().len() == get_full_size() == file_offset_end - file_offset_start, the first 8 bytes and the 8 bytes before the magic hold the same little-endian size, that size is to_u8().len() - 8, and the last 16 bytes are the magic.", "quantifier": "all constructor-built content lists; all edits followed by recalculate_size whose total size fits in u64", "why_tests_cant": "Requires the equality between declared and emitted sizes for every nesting of variable-length fields.", "anchors": ["src/signing_block/mod.rs: SigningBlock::{new,new_with_padding,recalculate_size,content_to_u8,to_u8,get_full_size,offset_by}, ValueSigningBlock::{size,inner_size}"]}
{"id": "C03", "title": "4K padding is exact and content preserving", "statement": "If SigningBlock::new_with_padding(content) succeeds, the serialised block is a multiple of 4096 bytes long, its content is the given content in the given order followed by at most one extra block, and that extra block, when present, is a zero-filled raw block with id 0x42726577.", "quantifier": "all content lists of content blocks whatsoever (alignment for constructor-built ones)", "why_tests_cant": "Alignment must hold for every residue of the content size modulo 4096, in combination with every block shape.", "anchors": ["src/signing_block/mod.rs: SigningBlock::new_with_padding, VERITY_PADDING_BLOCK_ID"]}
{"id": "C04", "title": "Padding constructor never panics and fails only for documented reasons", "statement": "For every content list, new_with_padding returns a value or an error and never panics; it returns an error exactly when a padding block is already present, when fewer than 12 bytes remain before the next 4096 boundary, or when the padded block would exceed 16 KB.", "quantifier": "all content lists, both overflow-checked (dev) and release builds", "why_tests_cant": "The failing residues are 11 out of 4096 and need a particular build profile.", "anchors": ["src/signing_block/mod.rs:275-331 new_with_padding (error message arithmetic at 295)"]}
{"id": "C05", "title": "Writer limit and reader limit agree", "statement": "Whatever signing block this tool writes, it can read back: SigningBlock::new/new_with_padding reject everything whose size field exceeds 16384 and every accepted block is accepted by from_u8; the reader rejects every block whose size field exceeds 16384; and the block the sign command produces for an ELF input (block from the signer, plus section info, then recalculate_size) is also accepted by the reader.", "quantifier": "all content lists; all section lists appended by the ELF signing path", "why_tests_cant": "The limit is crossed only for particular combinations of chain size and padding residue.", "anchors": ["src/signing_block/mod.rs: MAX_SIGNING_BLOCK_SIZE, MAX_PAIR_SIZE, new, new_with_padding, recalculate_size, from_u8", "src/cli/sign.rs:180-194"]}
{"id": "C06", "title": "Parsing untrusted bytes terminates and never panics", "statement": "SigningBlock::from_u8 and SigningBlock::from_reader return a block or an error for every byte sequence, every claimed file length and every end offset: they terminate and do not panic.", "quantifier": "all byte strings, all file_len and end_offset values, dev and release builds", "why_tests_cant": "Adversarial inputs are unbounded; fuzzing samples them and says nothing about termination.", "anchors": ["src/signing_block/mod.rs: from_u8, from_reader, parse_full_block, extract_values", "src/utils.rs: MyReader", "src/common.rs: *::parse"]}
{"id": "C07", "title": "Only well-framed blocks are accepted", "statement": "If from_u8 or from_reader returns a block then the input contains, at the returned position (for from_reader; from_u8 gives positions relative to the block it found), bytes of the form size(8) content size(8) magic(16) with both size fields equal to the region length minus 8 and at most 16384, and the content is exactly tiled by the parsed pairs: each pair's 8-byte length plus its value, with no bytes skipped, overlapping or left over.", "quantifier": "all byte strings accepted by the parser", "why_tests_cant": "It is a statement about every accepted adversarial input.", "anchors": ["src/signing_block/mod.rs: parse_full_block, extract_values, ValueSigningBlock::parse, from_reader, from_u8"]}
{"id": "C08", "title": "Signatures are checked over the bytes that are in the file", "statement": "For every signer in a parsed block, the bytes handed to the signature check are exactly the signed-data bytes stored in the file; equivalently, parsing a block and serialising it again reproduces the file's bytes.", "quantifier": "all accepted byte strings", "why_tests_cant": "Needs all non-canonical encodings an attacker can craft.", "anchors": ["src/verifier.rs:688-696, 841-849", "src/common.rs: Digest::parse/to_u8 (size is not checked)", "src/signing_block/scheme_v2.rs: SignedData::{parse,to_u8}", "src/signing_block/source_stamp.rs: SignedData::{parse,to_u8}"]}
{"id": "C09", "title": "Unrecognised blocks survive byte for byte", "statement": "A pair whose id is not the V2, source stamp or ELF section info id is decoded to a raw block carrying exactly its id and value bytes, and re-serialising it yields exactly the original pair bytes.", "quantifier": "all pairs of any id outside the three structured ids and any value up to the limit", "why_tests_cant": "All ids and all payloads.", "anchors": ["src/signing_block/mod.rs: ValueSigningBlock::parse, RawData::to_u8"]}
{"id": "C10", "title": "Memory used while parsing and verifying is bounded by the input", "statement": "While decoding a signing block of n bytes, and while re-serialising its signed data for verification, every buffer the library allocates has a size bounded by a fixed multiple of n.", "quantifier": "all byte strings", "why_tests_cant": "The worst case is adversarial.", "anchors": ["src/signing_block/elf_section_info.rs:133-139 (Vec::with_capacity from an untrusted u32)", "src/common.rs:51-67 (padding from an untrusted size)", "src/signing_block/mod.rs: limits"]}
{"id": "C11", "title": "Algorithm identifiers round-trip", "statement": "Converting any u32 to Algorithms and back gives the same u32; converting an Algorithms value obtained from a u32 to u32 and back gives the same value; only 0x0201 and 0x0202 map to the two known algorithms; u32 == Algorithms agrees with the conversion. The text of an algorithm begins with its identifier in hexadecimal, and different algorithms have different texts; that of an unknown algorithm ends with the identifier in at least four digits.", "quantifier": "all 2^32 identifiers", "why_tests_cant": "Exhaustive over u32.", "anchors": ["src/signing_block/algorithms.rs: From<u32>, From<&Algorithms>, PartialEq<Algorithms> for u32, Serialize/Deserialize", "src/signing_block/algorithms.rs: Display for Algorithms"]}
{"id": "C12", "title": "Located end-of-central-directory record is real", "statement": "If find_eocd returns a record for a file then the file holds, at the returned offset, exactly the bytes of that record (signature, fields and the whole comment), the record lies within the last 65557 bytes and inside the file, and no later offset holds a complete record that fits in the file.", "quantifier": "all files and all claimed file lengths up to the real length", "why_tests_cant": "Adversarial archives, comments containing signatures, trailing data.", "anchors": ["src/file_formats/module/zip.rs: find_eocd, find_eocd_in_buffer, parse_eocd_at_offset, EndOfCentralDirectoryRecord::to_u8"]}
{"id": "C13", "title": "A well-formed archive's end record is always found", "statement": "For every byte string body and every end record with a comment of at most 65535 bytes such that the archive body ++ record has no complete end record starting after the record's start, find_eocd returns that record with offset |body|.", "quantifier": "all archives, all comments of 0..65535 bytes", "why_tests_cant": "All comment lengths and all bodies.", "anchors": ["src/file_formats/module/zip.rs: find_eocd"]}
{"id": "C14", "title": "A signing block placed before the central directory is found exactly", "statement": "For every file body ++ block ++ rest where block is a serialised constructor-built signing block and the end record's directory offset is |body| + |block|, get_signing_block returns that block with file offsets |body| and |body|+|block|, whatever body and rest contain.", "quantifier": "all bodies, blocks, trailing bytes", "why_tests_cant": "All file contents, including bodies that contain other magics or other blocks.", "anchors": ["src/signing_block/mod.rs: from_reader", "src/file_formats/module/mod.rs: get_signing_block"]}
{"id": "C15", "title": "Unsigned modules are reported as unsigned", "statement": "If no signing block ends at the central directory of a module, get_signing_block reports that there is no signature (the error that digest and sign treat as unsigned) and never returns some other bytes of the file as the signing block.", "quantifier": "all well-formed archives without a signing block before the central directory", "why_tests_cant": "Depends on arbitrary entry contents.", "anchors": ["src/signing_block/mod.rs:373-485", "src/file_formats/module/mod.rs: get_signing_block, get_offsets", "src/signable.rs: maybe_missing_signature"]}
{"id": "C16", "title": "Tamper evidence of the module digest", "statement": "If two module files have the same digest under a known algorithm, then either their bytes outside the signing block are identical (with the end record's directory offset replaced by the start of the signing block), or two different inputs with the same hash value can be read off from the two files.", "quantifier": "all pairs of files, both algorithms, any hash function with fixed output length", "why_tests_cant": "Quantifies over all pairs of files; injectivity of the chunked digest cannot be tested.", "anchors": ["src/file_formats/module/digest.rs: digest_module, digest_chunk, digest_final_digest", "src/file_formats/module/mod.rs: digest, get_offsets"]}
{"id": "C17", "title": "Digest does not depend on the signing block", "statement": "For every well-formed unsigned module and every constructor-built signing block, the digest of the signed file equals the digest of the unsigned file, for every algorithm.", "quantifier": "all modules, all blocks, all algorithms", "why_tests_cant": "Signing would be unverifiable otherwise for the untested shapes.", "anchors": ["src/file_formats/module/digest.rs", "src/file_formats/module/mod.rs: get_offsets, digest", "src/signable.rs: write_with_signature"]}
{"id": "C18", "title": "Digest regions partition the file outside the signing block", "statement": "For every module on which digest_regions succeeds with the directory offset not beyond the end record, the three regions are in increasing order, pairwise disjoint, inside the file, and together with the signing block cover every byte of the file exactly once.", "quantifier": "all files for which digest_regions returns Ok", "why_tests_cant": "All layouts, gaps, trailing bytes.", "anchors": ["src/signable.rs: <Module as Signable>::digest_regions", "src/file_formats/module/mod.rs: get_offsets"]}
{"id": "C19", "title": "Digest does not depend on how reads are split", "statement": "digest_module gives the same result for every Read + Seek implementation that delivers the same bytes, however the individual read calls split them.", "quantifier": "all readers (all sequences of read sizes) over all files", "why_tests_cant": "Schedules of short reads cannot be enumerated and do not occur with local files.", "anchors": ["src/file_formats/module/digest.rs: digest_zip_contents, digest_central_directory (fill_buf per chunk)"]}
{"id": "C20", "title": "The central directory offset is authenticated", "statement": "If a signed module verifies, changing the central directory offset stored in its end record makes verification fail (an archive reader and the verifier agree on where the directory starts).", "quantifier": "all signed modules and all replacement offsets", "why_tests_cant": "All files and all offsets.", "anchors": ["src/signing_block/mod.rs: from_reader (no check that the block ends at the directory)", "src/file_formats/module/digest.rs:94-108"]}
{"id": "C21", "title": "Signing writes a block that reads back", "statement": "For every module whose end record hides no other one and that stays below 4 GiB (unsigned or already signed) and every constructor-built block, reading the signing block of the file produced by write_with_signature returns exactly that block, located immediately before the central directory. Where the end record's comment hides another record, the block can fail to read back.", "quantifier": "all modules, all blocks", "why_tests_cant": "All contents and sizes.", "anchors": ["src/signable.rs: <Module as Signable>::write_with_signature", "src/file_formats/module/mod.rs: get_signing_block"]}
{"id": "C22", "title": "Stripping undoes signing", "statement": "For every well-formed unsigned module, get_raw_module of the file produced by write_with_signature is byte-for-byte the original module.", "quantifier": "all modules, all blocks", "why_tests_cant": "All contents and sizes.", "anchors": ["src/file_formats/module/mod.rs: get_raw_module", "src/signable.rs: write_with_signature"]}
{"id": "C23", "title": "Re-signing replaces the old signature", "statement": "Signing an already signed module with a block b gives the same bytes as signing the original module with b, whatever the content of the module; in particular signatures never accumulate, whatever the history of signings, and a file that was signed once can be signed again with every block.", "quantifier": "all modules whose end record hides no other one and that stay below 4 GiB, all finite histories of blocks", "why_tests_cant": "Histories of arbitrary length.", "anchors": ["src/signable.rs: write_with_signature", "src/file_formats/module/mod.rs: get_raw_module"]}
{"id": "C24", "title": "Signing preserves the archive", "statement": "For every well-formed module, the file produced by write_with_signature consists of the original entry bytes, the block, the original central directory bytes and the original end record with only the directory offset changed, and the new offset points at the central directory.", "quantifier": "all modules, all blocks", "why_tests_cant": "All contents.", "anchors": ["src/signable.rs:322-385"]}
{"id": "C25", "title": "Sign then verify succeeds", "statement": "For every well-formed module and every signer configuration whose key and algorithm match and whose certificate carries the signer's public key, the file written by the sign command is accepted by verification with the same content: every V2 signature and the source stamp are reported signature-valid and digest-valid, and if the chain is trusted the overall verdict is valid.", "quantifier": "all modules, all keys, certificates, chains, timestamps; padded and unpadded", "why_tests_cant": "End-to-end composition over every input.", "anchors": ["src/cli/sign.rs", "src/signer.rs: ModuleSigner::sign", "src/signable.rs", "src/file_formats/module/mod.rs: verify_full, verify_with_roots", "src/verifier.rs"]}
{"id": "C26", "title": "Files with data after the end record can be signed verifiably", "statement": "Signing a module that find_eocd accepts although bytes follow the end record yields a file whose digest equals the signed digest.", "quantifier": "all modules with trailing bytes", "why_tests_cant": "Trailing data of every size.", "anchors": ["src/signable.rs:358-383 (writes eocd.to_u8 only)", "src/file_formats/module/digest.rs:93 (read_to_end)", "src/file_formats/module/mod.rs:346-357"]}
{"id": "C27", "title": "A valid V2 verdict means every signer really signed this content", "statement": "If verify_v2_with_digest returns Ok with signature_valid, digest_valid, cert_chain_valid and is_trusted all true, then there is at least one V2 signer and for every signer of every V2 block: it has at least one signature; every one of its signatures is a cryptographically correct signature, under the signer's public key, of its serialised signed data; for every signature the first digest of that algorithm in the signed data equals the computed content digest; and, when it has a certificate, the certificate's public key is that public key and the chain is trusted.", "quantifier": "all signing blocks (any numbers of blocks, signers, signatures, digests), all digest contexts, all root sets", "why_tests_cant": "Adversarial blocks; any number of signers and signatures.", "anchors": ["src/verifier.rs: verify_v2_with_digest, VerifyResult::from_signers"]}
{"id": "C28", "title": "signature_valid means some signature was checked", "statement": "If a signer is reported signature_valid then at least one of its signatures was verified.", "quantifier": "all signing blocks", "why_tests_cant": "Adversarial blocks.", "anchors": ["src/verifier.rs:699-748, 852-903"]}
{"id": "C29", "title": "One bad signer fails the whole V2 verification", "statement": "If any signer of any V2 block has a signature that does not verify, or whose algorithm has no digest, or whose digest differs from the computed digest, or a first certificate whose key differs from the signing key, then V2 verification does not report an overall valid result.", "quantifier": "all blocks, any position of the bad signer", "why_tests_cant": "Position and number of signers unbounded.", "anchors": ["src/verifier.rs: verify_v2_with_digest, from_signers"]}
{"id": "C30", "title": "No content check, no valid verdict", "statement": "Without a digest context, no signer is ever reported digest_valid, and the combined verdict is_valid is false whenever a V2 signer or a source stamp is present.", "quantifier": "all blocks", "why_tests_cant": "Universal over blocks.", "anchors": ["src/verifier.rs: verify_v2_with_digest, verify_source_stamp_with_digest, is_valid"]}
{"id": "C31", "title": "Unknown algorithms never verify", "statement": "A signature whose algorithm identifier is not one of the two supported ones never verifies, never signs, and no verdict is valid if a V2 signer or the first source stamp carries one, whatever the digest context contains. The content digest of a file under such an identifier, if it is computed at all, is empty.", "quantifier": "all identifiers, keys, data, signatures", "why_tests_cant": "2^32 ids times all data.", "anchors": ["src/signing_block/algorithms.rs: verify, sign, hash", "src/verifier.rs"]}
{"id": "C32", "title": "A trusted certificate cannot be borrowed", "statement": "If the first certificate of a V2 signer or of the first source stamp carries a public key different from the signer's public key (or does not parse), verification reports an error and the combined verdict is not valid.", "quantifier": "all blocks, all certificates", "why_tests_cant": "Adversarial blocks.", "anchors": ["src/verifier.rs: verify_pubkey_binding and its two call sites"]}
{"id": "C33", "title": "Trust only comes from configured roots", "statement": "verify_chain reports trusted only if at least one root was added and either the leaf equals an added root byte for byte or the PKI library accepted the chain against the added roots; with no roots nothing is trusted; trusted implies chain valid; adding roots never removes direct trust.", "quantifier": "all root stores built by any sequence of additions, all leaves and chains, all PKI outcomes", "why_tests_cant": "All histories of additions and all chains.", "anchors": ["src/verifier.rs: TrustedRoots, CertChainVerifier::verify_chain"]}
{"id": "C34", "title": "An overall valid verdict requires a signature", "statement": "If VerifyAllResult::is_valid() is true for a module then the module carries at least one verified V2 signer or source stamp.", "quantifier": "all signing blocks", "why_tests_cant": "Adversarial blocks.", "anchors": ["src/verifier.rs:201-207", "src/file_formats/module/mod.rs: verify_full"]}
{"id": "C35", "title": "The verify command succeeds only on fully verified modules", "statement": "The verify command exits successfully if and only if a digest could be computed, the V2 signature is present and fully valid (signature, digest, chain, trust) and the source stamp is absent or fully valid.", "quantifier": "all modules, blocks, root choices", "why_tests_cant": "Every combination of partial failures.", "anchors": ["src/cli/verify.rs: execute"]}
{"id": "C36", "title": "Command line and library verdicts agree", "statement": "For every module and root set: the verify command succeeds if and only if the library's verify_with_roots verdict is_valid() holds and V2 verification returned a result.", "quantifier": "all modules, all roots", "why_tests_cant": "The two use different digest contexts; equality must hold for all blocks.", "anchors": ["src/cli/verify.rs", "src/file_formats/module/mod.rs: verify_full, verify_with_roots"]}
{"id": "C37", "title": "Signer output shape", "statement": "ModuleSigner::sign produces, in order, a V2 block iff a V2 config is set, a source stamp iff a stamp config is set, and possibly padding; every digest passed in is stored unchanged in each; required_algorithms has no duplicates and contains exactly the configured algorithms; with no configuration it fails. Signing given digest pairs (sign_with_digests) stores exactly these pairs, in order, with the configured certificates, under one signature.", "quantifier": "all configurations, digests", "why_tests_cant": "All configurations.", "anchors": ["src/signer.rs: ModuleSigner::{sign,required_algorithms}, V2Signer::sign, SourceStampSigner::sign", "src/signer.rs: sign_with_digests"]}
{"id": "C38", "title": "Adding a source stamp touches nothing else", "statement": "If add_source_stamp succeeds, the new content is the old content in order without source stamps and padding, followed by exactly one new stamp and at most one padding block; the V2 verification result of the new block equals that of the old block for every digest context.", "quantifier": "all existing blocks, built or read, and configurations", "why_tests_cant": "All existing contents.", "anchors": ["src/signer.rs:399-444", "src/verifier.rs: verify_v2_with_digest"]}
{"id": "C39", "title": "Both stamp signers agree", "statement": "The two SourceStampSigner implementations produce equal source stamps for equal key, certificate, algorithm, timestamp option, time and digests.", "quantifier": "all inputs", "why_tests_cant": "All inputs.", "anchors": ["src/signing_block/source_stamp.rs: SourceStampSigner::sign", "src/signer.rs: SourceStampSigner::sign"]}
{"id": "C40", "title": "Key type and algorithm always match", "statement": "Algorithms::sign succeeds only for P-256 with 0x0201 and P-384 with 0x0202; every credential the keystore loaders return pairs a key with its own algorithm, so signing with loaded credentials never fails with a mismatch. The public key recorded by a signer, V2 or stamp, is that of the private key that signs, for the same curve.", "quantifier": "all key material, all parser behaviours, all passwords", "why_tests_cant": "All inputs.", "anchors": ["src/signing_block/algorithms.rs: sign", "src/keystore.rs: parse_private_key_pem, parse_private_key_der, load_p12_from_bytes, load_pem_from_bytes", "src/signing_block/algorithms.rs: public_key_der"]}
{"id": "C41", "title": "Certificate chains load in order", "statement": "From a PEM bundle the leaf is the first CERTIFICATE block, the chain is the remaining CERTIFICATE blocks in file order, other blocks are ignored, and loading fails if there is none; the V2 signer stores leaf then chain in that order.", "quantifier": "all bundles with any number of blocks", "why_tests_cant": "Any number and kind of blocks.", "anchors": ["src/keystore.rs: parse_certificate_chain_pem, load_p12_from_bytes", "src/signer.rs: V2Signer::sign"]}
{"id": "C42", "title": "The raw-module workflow signs correctly", "statement": "For every well-formed unsigned module opened with new_raw, after one successful sign_v2, write_with_signature emits the entries, the block, the directory and the shifted end record, i.e. the same file the Signable interface writes for that block, and the stored digest is the digest of that file.", "quantifier": "all modules, keys", "why_tests_cant": "All contents.", "anchors": ["src/file_formats/module/mod.rs: new_raw, sign_v2, write_with_signature, get_offsets"]}
{"id": "C43", "title": "Rewriting a signed module does not corrupt it", "statement": "Calling Module::write_with_signature on a module opened with Module::new that is already signed reproduces a file with the same entries, directory and signature; signing a raw module twice signs the same content digest both times.", "quantifier": "all signed modules, all histories of sign_v2 calls", "why_tests_cant": "All files and call histories.", "anchors": ["src/file_formats/module/mod.rs:258-311, 368-458"]}
{"id": "C44", "title": "ELF digest does not depend on the order sections are named", "statement": "Naming the same set of sections in a different order gives the same resolved sections and the same digest when their file offsets are distinct.", "quantifier": "all section tables, all permutations", "why_tests_cant": "All permutations.", "anchors": ["src/file_formats/elf/mod.rs: collect_sections", "src/file_formats/elf/digest.rs"]}
{"id": "C45", "title": "ELF section selection is validated", "statement": "After set_signed_sections succeeds the selection is non-empty, contains no blank or untrimmed name and never the signature section in any letter case; on failure the previous selection is kept; resolved sections are exactly the named ones, each present, non-empty, not NOBITS, sorted by offset.", "quantifier": "all name lists, all section tables, all histories of calls", "why_tests_cant": "All strings.", "anchors": ["src/file_formats/elf/mod.rs: set_signed_sections, collect_sections"]}
{"id": "C46", "title": "Signing an ELF file does not change its signed sections", "statement": "Signing an ELF file leaves every byte of the original file outside the ELF header unchanged and only appends, so the digest of sections lying outside the ELF header is the same before and after signing.", "quantifier": "all ELF files, all blocks", "why_tests_cant": "All files.", "anchors": ["src/file_formats/elf/mod.rs: write_with_signature, append_aligned, align_to", "src/file_formats/elf/digest.rs"]}
{"id": "C47", "title": "ELF signing block reads back and is replaced on re-sign", "statement": "After write_with_signature the file's .ksu_sign section holds exactly the serialised block, get_signing_block returns it, every other section header is unchanged except possibly the name table's offset and size, and re-signing updates the existing section instead of adding another.", "quantifier": "all ELF files whose section table is well-formed, all blocks, all histories", "why_tests_cant": "All files and histories.", "anchors": ["src/file_formats/elf/mod.rs: write_with_signature, get_signing_block"]}
{"id": "C48", "title": "ELF section info round-trips", "statement": "Section info built with ElfSectionInfo::new / from_tuples decodes to itself for every list of section names (valid UTF-8), offsets and sizes.", "quantifier": "all lists of entries, all names, all u64 values", "why_tests_cant": "All names including very long ones.", "anchors": ["src/signing_block/elf_section_info.rs"]}
{"id": "C49", "title": "Dump output is exactly the signable regions", "statement": "The digest command's dump succeeds exactly when every signable region lies within the file, and then the output is the concatenation of the region bytes in order, byte for byte, for modules and ELF files and every region size.", "quantifier": "all files of both formats, all section selections, all sizes relative to the 64 KB buffer", "why_tests_cant": "All sizes relative to the buffer.", "anchors": ["src/cli/digest.rs: dump_regions"]}
{"id": "C50", "title": "Printed digests are faithful", "statement": "The hex form prints exactly two lower-case hex digits per byte; the base64 form is RFC 4648 base64 with padding; and in either form two different byte strings never print the same.", "quantifier": "all byte strings", "why_tests_cant": "All byte strings.", "anchors": ["src/cli/digest.rs: hex_encode, OutputFormat"]}
{"id": "C51", "title": "Format detection", "statement": "A file is treated as ELF iff it starts with the ELF magic; otherwise as a module iff it starts with PK or contains an end record; otherwise opening fails; files shorter than 4 bytes fail.", "quantifier": "all files", "why_tests_cant": "All contents.", "anchors": ["src/signable.rs: detect_file_format, SignableFile::open"]}
{"id": "C52", "title": "A corrupted block is never treated as unsigned", "statement": "If the bytes before the central directory carry the magic but the block cannot be decoded, then digest, digest_regions, get_raw_module and write_with_signature all fail and write nothing; conversely every well-formed unsigned module without the magic can be digested and signed.", "quantifier": "all modules", "why_tests_cant": "All corruptions.", "anchors": ["src/file_formats/module/mod.rs: get_offsets", "src/signable.rs: maybe_missing_signature, write_with_signature"]}
{"id": "C53", "title": "Digest context behaves as a map", "statement": "After any sequence of add_digest calls, get_digest returns the last value added for an id and verify_digest is true exactly when such a value exists and equals the stored digest.", "quantifier": "all finite histories of add_digest", "why_tests_cant": "Histories of arbitrary length.", "anchors": ["src/verifier.rs: DigestContext"]}
{"id": "C54", "title": "Verification concerns one state of the file", "statement": "If verification of a path succeeds, then at some single moment the file at that path carried a signing block whose digest matches the rest of the file.", "quantifier": "all sequences of file contents seen by the successive opens", "why_tests_cant": "Races cannot be tested exhaustively.", "anchors": ["src/file_formats/module/mod.rs: verify_full, get_signing_block, digest (each call re-opens the path)"]}
{"id": "C55", "title": "A valid source stamp verdict means the stamp signed this content", "statement": "If verify_source_stamp_with_digest reports all four flags true then the first source stamp has at least one signature, all of its signatures verify over its signed data under its public key, at least one stored digest equals the computed digest and none of the compared ones differs, and its certificate, if any, carries that key and is trusted.", "quantifier": "all blocks, contexts, roots", "why_tests_cant": "Adversarial blocks.", "anchors": ["src/verifier.rs: verify_source_stamp_with_digest"]}
{"id": "C56", "title": "Unrelated blocks do not influence verification", "statement": "Adding, removing or reordering padding, unknown or section-info blocks changes neither the V2 nor the stamp result; the V2 result does not depend on stamps and the stamp result does not depend on V2 blocks.", "quantifier": "all blocks, all insertions", "why_tests_cant": "All insertions.", "anchors": ["src/verifier.rs: verify_v2_with_digest, verify_source_stamp_with_digest"]}
{"id": "C57", "title": "Structural chain check", "statement": "The structural chain check accepts iff there are no intermediates, or all certificates parse and each certificate's issuer equals the next one's subject.", "quantifier": "all chains of any length", "why_tests_cant": "Any length.", "anchors": ["src/verifier.rs: validate_chain_structure"]}
{"id": "C58", "title": "Verification always reports a verdict on untrusted files", "statement": "verify_full, verify_with_roots, digest and digest_regions return a verdict or an error for every file content and never panic.", "quantifier": "all file contents, dev and release builds", "why_tests_cant": "Adversarial files.", "anchors": ["src/file_formats/module/mod.rs", "src/file_formats/module/digest.rs", "src/signable.rs: digest_regions"]}
{"id": "C61", "title": "Signing an ELF file succeeds and never panics", "statement": "Writing a signing block into an ELF file that opened successfully and has a section name table returns a file; it never panics.", "quantifier": "all ELF files, all signing blocks", "why_tests_cant": "Adversarial header values such as alignments near 2^63; all files.", "anchors": ["src/file_formats/elf/mod.rs: write_with_signature, append_aligned, align_to"]}
{"id": "C62", "title": "Changing the signed sections of an ELF file is noticed", "statement": "If two ELF files have the same digest under an algorithm then the bytes of the chosen sections are the same, under the same names, or a hash collision can be exhibited.", "quantifier": "all pairs of ELF files, all section selections, all algorithms", "why_tests_cant": "All pairs of files of any size.", "anchors": ["src/file_formats/elf/digest.rs", "src/file_formats/elf/mod.rs: digest, resolved_sections"]}
{"id": "C63", "title": "What the sign command makes of an ELF file verifies", "statement": "If the sign command succeeds on an ELF file then the output opens, its signing block is found, and verification of that block against the digests of the output over the sections the block lists succeeds, for V2 and for the source stamp if one was requested.", "quantifier": "all ELF files, section selections, signer configurations whose keys and certificates match", "why_tests_cant": "All files and configurations; block sizes around the limit.", "anchors": ["src/cli/sign.rs", "src/file_formats/elf/mod.rs", "src/signer.rs", "src/verifier.rs", "src/signing_block/mod.rs"]}
{"id": "C59", "title": "A failing sign command leaves the files alone", "statement": "If the sign command fails, neither the input nor an existing output file is changed; this also holds when output and input are the same path.", "quantifier": "all inputs of both formats, signers, output equal to input or not", "why_tests_cant": "Every failure point for every input.", "anchors": ["src/cli/sign.rs: execute", "src/signable.rs: write_with_signature"]}
{"id": "C60", "title": "The info command shows the signature that counts", "statement": "The block the info command shows is the block the verify command checks, and the info command never says that the content was verified.", "quantifier": "all files", "why_tests_cant": "All files, including hostile ones.", "anchors": ["src/cli/info.rs: execute", "src/file_formats/module/mod.rs: get_signing_block"]}
{"id": "C64", "title": "The verify command accepts what the sign command wrote", "statement": "A file written by a successful sign command with trusted certificates is accepted by the verify command, for modules and for ELF files.", "quantifier": "all inputs of both formats, all signers", "why_tests_cant": "All inputs.", "anchors": ["src/cli/sign.rs", "src/cli/verify.rs"]}
{"id": "C65", "title": "Choosing ELF sections for a module is refused", "statement": "The sign command given ELF sections and a module fails without touching the output.", "quantifier": "all modules, all section lists, all signers", "why_tests_cant": "All modules.", "anchors": ["src/cli/sign.rs", "src/signable.rs: set_elf_sections"]}
{"id": "C66", "title": "Only credentials that belong together are accepted", "statement": "The sign command succeeds only if the certificate given carries the public key of the private key given; what it writes successfully is accepted by the verify command wherever the certificates are trusted.", "quantifier": "all modules, keys, certificates and trust stores", "why_tests_cant": "Every pairing of keys and certificates.", "anchors": ["src/cli/sign.rs: execute", "src/keystore.rs: load_pem, load_p12", "src/signer.rs: ModuleSignerConfig::from_credentials"]}
{"id": "C67", "title": "Credential options are honoured", "statement": "The V2 signature is made with the credentials named by the V2 options and the source stamp with those named by the stamp options; a PKCS#12 container takes precedence over PEM files; a missing companion option is an error before the output is touched; and no option given is silently ignored.", "quantifier": "all combinations of options and contents of the files", "why_tests_cant": "All combinations of eight options.", "anchors": ["src/cli/sign.rs: execute"]}
{"id": "C68", "title": "A stamp is trusted where the same credentials are trusted", "statement": "If a V2 signature made with some credentials, chain included, is accepted, then a source stamp made with the same credentials is accepted too.", "quantifier": "all credentials with chains, modules and trust stores", "why_tests_cant": "All chains and trust stores.", "anchors": ["src/signer.rs: SourceStampSigner::sign", "src/cli/sign.rs: execute"]}
{"id": "C69", "title": "Password errors mean what they say", "statement": "Loading a key reports 'password required' exactly for an encrypted key without password, 'invalid password' exactly for an encrypted key with a password that does not decrypt it, and for an unencrypted key the password does not matter.", "quantifier": "all key texts and passwords, all behaviours of the decoders", "why_tests_cant": "All texts and passwords.", "anchors": ["src/keystore.rs: parse_private_key_pem"]}
{"id": "C70", "title": "The digest command prints the digest that signing stores", "statement": "For every file and section selection, what the digest command prints decodes to exactly the content digest of the file for the chosen hash, and whenever the sign command with a signer of that algorithm succeeds on the same file and selection, this very digest is stored in the signature it writes.", "quantifier": "all files of both formats, all section selections, both hashes, both output formats, both build profiles", "why_tests_cant": "Two commands must agree on every file.", "anchors": ["src/cli/digest.rs: execute", "src/cli/sign.rs: execute", "src/signable.rs: SignableFile"]}
{"id": "C71", "title": "Dumping regions never damages files", "statement": "The dump either leaves the output path untouched or leaves the complete regions there, and it never changes the input file.", "quantifier": "all files, all section selections, output path equal to or different from the input path", "why_tests_cant": "Depends on failures at every point of the run and on path identity.", "anchors": ["src/cli/digest.rs: dump_regions"]}
{"id": "C72", "title": "The dump determines the digest", "statement": "Two files whose dumped regions have the same sizes and the same bytes have the same content digest for every algorithm: what the dump shows is all the digest depends on.", "quantifier": "all pairs of files, all algorithms", "why_tests_cant": "Quantifies over pairs of files.", "anchors": ["src/cli/digest.rs: dump_regions", "src/signable.rs: digest"]}
{"id": "C73", "title": "The verification report identifies each signer", "statement": "A returned report has one entry per signer of the block, in order; each entry shows that signer's own certificate and chain, its trust and flags are about that signer, its number is its position, and a warning carrying number n belongs to the n-th signer. The overall certificate and chain are the first signer's. For a source stamp there is one entry, about the first stamp.", "quantifier": "all signing blocks with any number of V2 blocks and signers, all root stores, with and without computed digests", "why_tests_cant": "Any number of signers in any arrangement.", "anchors": ["src/verifier.rs: VerifyResult, SignerVerifyResult, from_signers, verify_v2_with_digest"]}
{"id": "C74", "title": "Signers do what they were configured to do", "statement": "A signer made with a given key, certificate, algorithm and chain signs with exactly these; v2_only makes no stamp and stamp_only no V2 signature; blocks are padded and stamps carry the time unless the last call of the corresponding switch says otherwise, in whatever order the switches are called.", "quantifier": "all keys, certificates, chains, digests and all sequences of switch calls", "why_tests_cant": "All sequences of builder calls.", "anchors": ["src/signer.rs: ModuleSignerConfig, ModuleSigner", "src/signing_block/source_stamp.rs: SourceStampSignerBuilder"]}
{"id": "C75", "title": "Every flag that is not set is explained, and every warning is true", "statement": "In a returned report, each validity flag of a signer that is false comes with a warning saying why, and no warning says something that is not the case.", "quantifier": "all signing blocks, root stores, times and digest contexts", "why_tests_cant": "All combinations of failures.", "anchors": ["src/verifier.rs: verify_v2_with_digest, verify_source_stamp_with_digest, verify_chain"]}
{"id": "C76", "title": "Failures are attributed to the signers that failed", "statement": "When verification is refused, there is exactly one failure per failing signer, and the number the verify command prints with a failure is the number of a signer that failed.", "quantifier": "all signing blocks with any number of signers, all digest contexts", "why_tests_cant": "All arrangements of good and bad signers.", "anchors": ["src/verifier.rs: verify_v2_with_digest", "src/cli/verify.rs: execute"]}
{"id": "C77", "title": "Acceptance proves that the content was signed", "statement": "If the verify command accepts a file, then for every V2 signer in it (and for the first source stamp) a trusted certificate carries its key, and the holder of that key signed exactly this content: the same entries, the same central directory, the same end record up to its directory offset. The only other possibilities are that the key was used on an ELF file whose chosen sections, one after the other, are this content (see C78), a forged signature in the file, or two different inputs with the same hash value that can be read off from the two files.", "quantifier": "all files, all histories of key uses and of runs of the sign command on files of either format, all builds, all trust roots and times, all hash and signature functions", "why_tests_cant": "An attacker chooses the file; no sample of manipulated files shows that every accepted one was signed.", "anchors": ["src/cli/verify.rs: execute", "src/verifier.rs: verify_v2_with_digest, verify_source_stamp_with_digest", "src/cli/sign.rs: execute", "src/file_formats/module/digest.rs: digest_module"]}
{"id": "C78", "title": "A signature for one file format is not accepted for the other", "statement": "A signing block made for an ELF file is never accepted by the verify command for a module that was never signed.", "quantifier": "all ELF files, all section choices, all modules, all signers", "why_tests_cant": "It ranges over all pairs of files; the interesting ones are built on purpose.", "anchors": ["src/file_formats/elf/digest.rs: digest_elf_sections", "src/file_formats/module/digest.rs: digest_module", "src/cli/sign.rs: execute", "src/cli/verify.rs: execute"]}
{"id": "C79", "title": "Histories of commands: only named files change, and results depend only on named files", "statement": "Over any history of sign, verify, info, digest and dump commands, each of which may be stopped at any point, only files named as outputs change; a command does after any history what it did before if its inputs were not written; commands on unrelated files can be run in any order; a stopped command can be repeated. A module that was signed stays accepted while its certificates are trusted, whatever it contains, if nothing followed its end record, a block it already had stood directly before its directory, no second end record hides in its comment and it is not too large (otherwise C93 applies). In a chain of re-signings the outcome of every signing after the first depends on its own credentials and clock only, not on the signings before.", "quantifier": "all histories of commands, all stopping points, all file systems", "why_tests_cant": "Histories and stopping points are unbounded in number.", "anchors": ["src/main.rs: main", "src/cli/mod.rs: Cli, execute", "src/cli/sign.rs: execute", "src/cli/verify.rs: execute", "src/cli/info.rs: execute", "src/cli/digest.rs: execute"]}
{"id": "C80", "title": "The exit status tells what happened", "statement": "The program always ends with exit status 0 or 1. Status 0 of the sign command means that the signed output was written; status 0 of the verify command means that the module verifies under the root; status 0 of the digest command means that the digest was printed.", "quantifier": "all file systems, all commands and options, all times", "why_tests_cant": "It ranges over every content of every file that the program reads.", "anchors": ["src/main.rs: main", "src/cli/mod.rs: execute", "src/cli/sign.rs: execute", "src/cli/verify.rs: execute", "src/cli/digest.rs: execute"]}
{"id": "C81", "title": "An interrupted signing leaves no file that verifies", "statement": "If the sign command is stopped while it writes the output, so that only a proper part of the signed module is on disk, the verify command does not accept that part.", "quantifier": "all modules, all signers, all stopping points, all later times", "why_tests_cant": "There is a crash point for every byte of every output.", "anchors": ["src/cli/sign.rs: execute", "src/file_formats/module/mod.rs: write_with_signature", "src/cli/verify.rs: execute"]}
{"id": "C82", "title": "Edited blocks read back", "statement": "A signing block whose content was edited through content_mut and then brought up to date with recalculate_size serialises to bytes that from_u8 reads back as the edited block; it is the same block that SigningBlock::new builds from that content, however many edits came before. Without recalculate_size the reader never returns an edited content whose total size differs from the recorded one.", "quantifier": "all blocks, all sequences of edits", "why_tests_cant": "Blocks and edit histories are unbounded.", "anchors": ["src/signing_block/mod.rs: content_mut, recalculate_size, from_u8, to_u8", "src/cli/sign.rs: execute"]}
{"id": "C83", "title": "The output of the verify command can be believed", "statement": "The verify command prints that verification was successful exactly if it ends with status 0; that the source stamp passed only if the stamp is good and trusted; that the V2 signature passed only if there is a correct V2 signature of the content by a trusted signer; a successful run prints no error; asking for verbose output does not change the result.", "quantifier": "all files, all roots, all times", "why_tests_cant": "It ranges over all files; the misleading ones are built on purpose.", "anchors": ["src/cli/verify.rs: execute"]}
{"id": "C84", "title": "The info command tells the truth about the block", "statement": "When `ksusig info FILE` exits successfully, the location and size it prints are those of a well-framed signing block that really is in the file at that place, and the list of contents has exactly one line for each ID-value pair of that block, in file order, each naming the right kind (V2 signature, source stamp, section record with its number of sections, or unknown with its ID). It never says that the content was verified; it says 'signature valid' or 'trusted' for V2 only if every signature of every V2 signer is correct, respectively every signer's certificate is trusted through the built-in root; details of a source stamp are shown exactly if its signatures are correct under the key of its certificate. A reader can tell from the output that a listed stamp is bad.", "quantifier": "all files, all behaviours of the cryptographic and X.509 libraries, all clocks and built-in roots", "why_tests_cant": "the statement ranges over every file, including hostile ones, and over every combination of blocks, signers and certificates; a test shows the output for some files", "anchors": ["src/cli/info.rs: execute", "src/signing_block/mod.rs: SigningBlock::from_reader", "src/verifier.rs: SignatureVerifier::verify_v2_with_digest, verify_source_stamp"]}
{"id": "C85", "title": "is_signed means: a block can be read", "statement": "is_signed of a module or an ELF file is true exactly if get_signing_block returns a block, and false exactly if it returns none or fails. A module without the magic is not signed; written with any block it is; stripped it is not again. The same holds for ordinary ELF files before and after writing. A module opened as raw is not signed until sign_v2 succeeds, and its raw bytes stay the file as it was. A file whose block is damaged counts as unsigned (or, in a dev build, is_signed panics) although it can neither be signed, digested nor stripped.", "quantifier": "all files, all states of an opened module, all section selections, all blocks", "why_tests_cant": "every file and every damage to a block; a test shows some", "anchors": ["src/signable.rs: Signable::is_signed, get_signing_block", "src/file_formats/module/mod.rs: new_raw, get_raw_module, sign_v2", "src/file_formats/elf/mod.rs: get_signing_block"]}
{"id": "C86", "title": "Commands running at the same time do not disturb each other", "statement": "Any number of commands are started together; none of them writes a file that another one reads or writes. Whatever the order in which their file operations are interleaved, and whichever of them are killed at whatever moment: a command that has ended has printed, returned and written exactly what it would have if it had run alone; at every moment the files are as if the commands had run one after the other, each completely, not at all, or stopped while writing a prefix of its output. Every command ends after a number of its own operations that does not depend on the others, and no command ever waits for another one, even when they do use the same files.", "quantifier": "all sets of commands, all file systems, all schedules, all crash points, all ways of buffering the output", "why_tests_cant": "schedules and crash points are unbounded in number; a test sees a few of them and cannot force the rest", "anchors": ["src/cli/sign.rs: execute", "src/cli/verify.rs: execute", "src/cli/digest.rs: execute, dump_regions", "src/file_formats/module/mod.rs: get_offsets, digest, get_raw_module", "src/signable.rs: write_with_signature, open"]}
{"id": "C87", "title": "Exit status 0 and the output while other commands run", "statement": "If the sign command exits with status 0, its output is the signed module it computed, whatever other commands run at the same time.", "quantifier": "all commands, all schedules, all ways of buffering", "why_tests_cant": "it depends on interleavings of several processes", "anchors": ["src/cli/sign.rs: execute", "src/cli/digest.rs: dump_regions"]}
{"id": "C88", "title": "The decoder accepts exactly the documented format, and returns what it says", "statement": "Decoding a block from bytes or from a file succeeds exactly when the bytes contain a framed block following the format (pairs without gaps; signers, digests, certificates, attributes, signatures, keys and section lists in their wire form, with the documented tolerances), within the size limit and with no later magic; the decoded value is the one the format assigns to those bytes, no byte string has two readings, and the build profile does not matter.", "quantifier": "all byte strings, all files and search ends, both build profiles", "why_tests_cant": "acceptance is an equivalence over all byte strings; fuzzing shows neither that nothing else is accepted nor that every well-formed block is", "anchors": ["src/signing_block/mod.rs: from_u8, from_reader, parse_full_block, extract_values", "src/signing_block/scheme_v2.rs", "src/signing_block/source_stamp.rs", "src/signing_block/elf_section_info.rs", "src/common.rs"]}
{"id": "C89", "title": "Which bytes of a module file are its end record, its block and its hashed regions", "statement": "For every file: the end record found is the last complete one, which must start within the last 65557 bytes; the block returned is the last one, by its magic, before the directory offset (or the end of the file), readable and within the limits, and 'not signed' is reported exactly if nothing there looks like a block; a digest is computed exactly if both are settled and the directory starts before the end record (release builds do not insist on that), and it is the two-level digest of the bytes before the block, the bytes between block and end record, and the rest with the offset replaced.", "quantifier": "all files, both build profiles, all hash functions", "why_tests_cant": "an equivalence over all files, including malformed ones: nothing else is found, and everything that qualifies is", "anchors": ["src/file_formats/module/mod.rs: get_signing_block, get_offsets, digest", "src/file_formats/module/zip.rs: find_eocd", "src/signing_block/mod.rs: from_reader", "src/file_formats/module/digest.rs: digest_module"]}
{"id": "C90", "title": "What the verify command accepts, in terms of the bytes of the file", "statement": "The verify command exits successfully exactly if the file has an end record and a block in force before its offset, that block ends before the end record (release builds do not insist on that), the root certificate loads, the block holds a V2 signer, every V2 signer is good for the digests of the hashed regions under that root, and so is the first source stamp if there is one. The library call with a trust store agrees, and a development build accepts exactly the files a release build accepts whose directory starts before the end record.", "quantifier": "all files, roots, times and both build profiles", "why_tests_cant": "the set of accepted files is infinite and an attacker chooses from it", "anchors": ["src/cli/verify.rs: execute", "src/file_formats/module/mod.rs: verify_with_roots", "src/verifier.rs: verify_v2_with_digest, verify_source_stamp_with_digest"]}
{"id": "C91", "title": "Stripping a module: when it succeeds and what it returns, in terms of bytes", "statement": "For every file, the unsigned form of a module is returned exactly if the file has an end record and a block in force before its offset, and block and record (counted from the end of the file) do not overlap; the result is the bytes before the block, the bytes after it except for as many bytes at the end as the record has, and the record with its offset reduced by the size of the block. Both build profiles agree.", "quantifier": "all files, both build profiles", "why_tests_cant": "an equivalence over all files, including malformed ones and ones with bytes behind the end record", "anchors": ["src/file_formats/module/mod.rs: get_raw_module", "src/file_formats/module/zip.rs: find_eocd"]}
{"id": "C92", "title": "Signing a module: when it succeeds and what it writes, in terms of bytes", "statement": "For every file, writing a module with a block succeeds exactly if the file is unsigned or can be stripped, and the end record of what remains stands behind the directory offset it gives; what is written is then the remaining bytes with the block inserted at that offset, the record with the offset increased by the block's size, and nothing behind the record. The sign command succeeds exactly if in addition the digests of the input's regions can be computed and the configured signer signs them, and it writes that block.", "quantifier": "all files, blocks, signers, clocks and both build profiles", "why_tests_cant": "an equivalence over all files; a single input on which signing loses or moves other bytes would destroy a user's module", "anchors": ["src/signable.rs: write_with_signature", "src/cli/sign.rs: execute", "src/signer.rs: ModuleSigner, sign"]}
{"id": "C93", "title": "For which files signing and then verifying works", "statement": "Let the sign command succeed, with sound signers including a V2 signer, on a file whose end record hides no other record and that stays below 4 GiB. With the signers' certificates trusted, the verify command accepts the output exactly if the digests of the output's regions are those of the input's. So the output is accepted if nothing follows the end record of the input and the input's block, if any, stands directly before its directory, whatever else the input contains. In all other cases the output is refused, with every root and at every time, unless a hash collision can be read off.", "quantifier": "all such files, signers, clocks, roots, times and both build profiles", "why_tests_cant": "which of all possible inputs are signed successfully and yet unverifiable cannot be found by sampling", "anchors": ["src/cli/sign.rs: execute", "src/cli/verify.rs: execute", "src/signable.rs: write_with_signature", "src/file_formats/module/mod.rs: get_raw_module, digest"]}
{"id": "C94", "title": "Signing again: outputs differ only in the block, and a second signing can always be verified", "statement": "For every module file whose end record hides no other record and that stays below 4 GiB, and every history of one or more successful sign commands, each applied to the output of the one before, with any signers and times: all outputs agree outside the block, stripping any of them gives the same file, and from the second signing on the outcome of the command depends on the signer only. Whatever the first input was, a file signed at least twice is accepted by the verify command and by the library if the last signer is sound and trusted.", "quantifier": "all such files, all finite histories of signings, signers, clocks, roots and times", "why_tests_cant": "it quantifies over all histories and over inputs for which the first signing is not verifiable", "anchors": ["src/cli/sign.rs: execute", "src/signable.rs: write_with_signature", "src/file_formats/module/mod.rs: get_raw_module", "src/cli/verify.rs: execute"]}
{"id": "C95", "title": "Exactly when stripping undoes signing, and that only the last signing counts", "statement": "For every module file whose end record hides no other record and that stays below 4 GiB: what stripping the signed file gives does not depend on the block, and it is the original file if and only if the original contains nothing that looks like a block before its directory and nothing follows its end record. Whatever the file contains, the result of any history of signings is what signing the first file with the last block alone gives, signing again always succeeds, and stripping before signing again changes the result exactly if the stripped file still contains something that looks like a block.", "quantifier": "all such files, all blocks made by the builder, all finite histories, both build profiles", "why_tests_cant": "equivalences over all files and all histories", "anchors": ["src/signable.rs: write_with_signature", "src/file_formats/module/mod.rs: get_raw_module"]}
{"id": "C96", "title": "Input and output errors are never taken for success", "statement": "Whichever operations on files fail while a command runs (opening or reading an input, creating the output, any write to it), the command ends; if it does not end with exit status 1, it has printed and left exactly what it prints and leaves when nothing fails, and its exit status is the same. So no error makes the verify command accept, or any command crash. Every command reports an error that really happens by exit status 1, and nothing but the output file is touched.", "quantifier": "all commands, files, credentials, buffer sizes, all sequences of failing and succeeding operations, all contents a failed write may leave, both build profiles", "why_tests_cant": "every operation may fail at every moment, in every combination", "anchors": ["src/cli/verify.rs: execute", "src/cli/sign.rs: execute", "src/cli/digest.rs: execute", "src/cli/info.rs: execute", "src/signable.rs: write_with_signature"]}
{"id": "C97", "title": "Which bytes of an ELF file are its sections, digest and block", "statement": "What the library reads from an ELF file is determined by its bytes in the way the format says: the class, the byte order, the section headers at the table offset, as many as the header says, and the section names are read from their places, and a file is opened exactly if these lie in the file and the names are text (and the other tables are acceptable). The file is reported as not signed exactly if no section is called .ksu_sign or the first one has size 0; a block is returned exactly if the first one lies in the file and holds one. Digests cover exactly the bytes of the first section of every selected name, in the order of their offsets.", "quantifier": "all files, section selections, hash functions, both build profiles", "why_tests_cant": "all files, of both classes and byte orders, with any headers, names and overlapping or missing sections", "anchors": ["src/file_formats/elf/mod.rs: get_signing_block", "src/file_formats/elf/mod.rs: resolved_sections", "src/file_formats/elf/mod.rs: digest"]}
{"id": "C98", "title": "Exactly which bytes signing an ELF file writes", "statement": "Signing an ELF file succeeds exactly if it can be opened, its name table lies in the file, the name .ksu_sign gets an offset of 32 bits and there are then at most 65535 section headers. The result is then determined byte by byte: the old file, padding and the block; at the first signing also a copy of the section names with .ksu_sign at its end; the section headers, of which only the one of the signature section and, at the first signing, that of the names are new; and in the ELF header only the place, size and number of the section headers are changed. Signing panics exactly if the result would be longer than memory can hold.", "quantifier": "all files, blocks and signers, both classes and byte orders, both build profiles", "why_tests_cant": "all files with any headers, alignments and names, unsigned and signed", "anchors": ["src/file_formats/elf/mod.rs: write_with_signature", "src/file_formats/elf/mod.rs: append_aligned", "src/file_formats/elf/mod.rs: align_to", "src/file_formats/elf/mod.rs: existing_name_offset", "src/cli/sign.rs: execute"]}
{"id": "C99", "title": "When a signed ELF file can be opened and its block is read back", "statement": "After the first signing a file can be opened exactly if its section names, ten bytes longer, still end within the address space; the new section is then the one found by its name exactly if no other section had a name offset at the end of the old names. If also, in a file that already has a signature section, that is not the section of the names, which does not lie in the ELF header, then every block that can be read at all is read back, and the same holds after any number of further signings: the last block counts.", "quantifier": "all files, blocks and histories of signings, both classes and byte orders, both build profiles (files of the 32-bit class stay below 4 GiB; the program headers and other tables of the result are acceptable)", "why_tests_cant": "all files, including those whose section headers claim strange names and addresses, and all numbers of signings", "anchors": ["src/file_formats/elf/mod.rs: write_with_signature", "src/file_formats/elf/mod.rs: get_signing_block", "src/file_formats/elf/mod.rs: find_section_index"]}
{"id": "C100", "title": "Signing an ELF file leaves what is signed as it was, so it verifies", "statement": "In a file as in C99, signing does not change which sections the selected names stand for, if the file already had a signature section, or its names are terminated and the selected names are neither that of the section of the names nor an end of .ksu_sign; and it does not change their digests, if they lie in the file and do not cover the table fields of the ELF header. The block that the sign command writes into such a file is read back exactly if it is at most 16 KiB large, and then, with sound signers, it lists the sections and verifies.", "quantifier": "all files, selections, signers, hash functions, trust stores and times, both build profiles (files of the 32-bit class stay below 4 GiB; the program headers and other tables of the result are acceptable)", "why_tests_cant": "all files, with any names, overlapping sections and any section headers", "anchors": ["src/file_formats/elf/mod.rs: write_with_signature", "src/file_formats/elf/mod.rs: resolved_sections", "src/file_formats/elf/mod.rs: digest", "src/cli/sign.rs: execute", "src/cli/verify.rs: execute"]}
{"id": "C101", "title": "Storing a signing block with serde and loading it again does not change it", "statement": "Every signing block read from a file or from bytes, and every one made by the constructors, is the same after it was serialized and deserialized: it is written as the same bytes and gets the same verdicts. In general this holds exactly for the blocks whose numbers fit their types, whose section names are text and which hold no known algorithm under the name Unknown; whatever was deserialized is such a block; different blocks are stored differently. A document is accepted exactly when every structure in it is a map with each field of that structure once, or the sequence of its fields, and each field holds a value of its type; the order of the fields and unknown fields do not matter. Sizes are not checked, so a document made by someone else may give a block whose bytes are not read back.", "quantifier": "all signing blocks, all documents, all files", "why_tests_cant": "all blocks with any number and kind of pairs, all documents", "anchors": ["src/signing_block/mod.rs: SigningBlock", "src/signing_block/mod.rs: ValueSigningBlock", "src/signing_block/algorithms.rs: Algorithms", "src/common.rs: Digests", "src/signing_block/scheme_v2.rs: Signer", "src/signing_block/source_stamp.rs: StampBlock", "src/signing_block/elf_section_info.rs: ElfSectionInfo"]}
{"id": "C102", "title": "What verification says when the clock moves while it runs", "statement": "Each chain is checked at the time at which verification reaches it: all four V2 flags are reported exactly when there is a signer and every signer is good at the time its own chain is checked, all four stamp flags exactly when the first stamp is good at its time. If the PKI library's answer for none of the chains changes while verification runs, the verdict is that of any single moment of it. Otherwise a block may be reported valid that would be valid at no single moment.", "quantifier": "all blocks, all clocks (any time at any check), all trust stores and PKI answers", "why_tests_cant": "all schedules of the clock during a run", "anchors": ["src/verifier.rs: verify_chain", "src/verifier.rs: verify_v2_with_digest", "src/verifier.rs: verify_source_stamp_with_digest", "src/verifier.rs: verify_all_with_digest"]}
{"id": "C103", "title": "What a command's exit status means while other programs work on the files and operations fail", "statement": "Between any two file operations of a command other programs may change, create or remove any files, and any operation may fail. If they leave the command's inputs and output alone, the command does not notice them: a status other than 1 means the same status, the same printed lines and the same output as alone and without errors. In any case the command ends if it is allowed to go on, and changes no file but its output. If verify exits with 0, then, whatever was done to the module and the root certificate meanwhile: the module had at some moment a signing block all of whose V2 signers (at least one) and whose first stamp are good under the certificate that the root file had at some moment, for digests of ranges of a content the module had at some moment. These moments may differ: there are runs in which every content the module ever had is refused by verify. Likewise sign can exit with 0 and leave an output that is refused if its input is replaced meanwhile.", "quantifier": "all commands, all files, all sequences of operations of other programs placed between the command's operations, all failures of the command's operations", "why_tests_cant": "unbounded number of schedules, contents and failures", "anchors": ["src/cli/sign.rs: execute", "src/cli/verify.rs: execute", "src/cli/digest.rs: execute", "src/cli/info.rs: execute", "src/main.rs: main"]}
{"id": "C104", "title": "What the choice of trusted roots and the time can change in a verdict", "statement": "The trust store and the clock influence only the flags and warnings about certificate chains: whether verification of a block returns a result or an error and which one, the signature and digest flags of the block and of each signer, certificates, errors and all other warnings are the same for all stores and times. Trusting more roots never takes acceptance away: a trusted chain stays trusted, a verdict with all flags keeps them, an overall valid verdict stays valid, also for whole modules. The order in which roots are added, adding one twice, and PEM or DER make no difference. A root that cannot be used as an anchor is itself trusted and changes nothing for other leaf certificates. The flag cert_chain_valid alone may be lost by adding a root.", "quantifier": "all blocks, digest contexts, sequences of additions to the trust stores, times, and answers of the PKI library (monotone, or depending only on the set of anchors, where stated)", "why_tests_cant": "all pairs of trust stores, all blocks and all certificate chains", "anchors": ["src/verifier.rs: add_root", "src/verifier.rs: add_root_pem", "src/verifier.rs: with_builtin", "src/verifier.rs: is_direct_root", "src/verifier.rs: verify_chain", "src/verifier.rs: verify_v2_with_digest", "src/verifier.rs: verify_source_stamp_with_digest", "src/file_formats/module/mod.rs: verify_with_roots"]}
{"id": "C105", "title": "Every line of the verify command's report says what is the case", "statement": "For a module with a block, a loadable root certificate and computable digests, the verify command prints a line exactly if what the line says is true of the verdicts on the V2 signature and the source stamp: a signer's number, its four flags, its certificate, the length and the certificates of its chain and its warnings (the last two only in verbose mode); the overall flags; each single reason for a failure, reported only for the flag that is missing; nothing about the source stamp unless the V2 signature is absent or fully valid; success exactly if the V2 signature is fully valid and the stamp absent or fully valid. Each signer's flags are directly followed by the certificate of the same signer. Without a block, with a root that cannot be loaded or without digests it prints exactly the lines up to that point.", "quantifier": "all files, all roots, all times, verbose or not, every line", "why_tests_cant": "It ranges over all verdicts, so over all files and blocks; a swapped flag in one line shows only for a file where the two flags differ.", "anchors": ["src/cli/verify.rs: execute"]}
{"id": "C106", "title": "The verdict on a module hardly depends on whether the tool was built with ELF support", "statement": "A build without the feature elf reads a block from every module the full build reads one from, the same block at the same place, with section lists kept as bytes; it reaches the same verdicts about the V2 signature and the source stamp for every trust store and time, determines the same digest and signs from the same bytes; the two agree on which modules are unsigned. The only difference: a block with a pair that has the id of a section list but is none is refused by the full build and read by the other, which can therefore accept a module the full build rejects. Files starting with the ELF magic are taken for modules by the build without ELF support.", "quantifier": "all files, all environments, roots and times, both build profiles", "why_tests_cant": "It compares two programs on every file; the tests are run with one feature set.", "anchors": ["src/signing_block/mod.rs: ValueSigningBlock, parse", "src/signable.rs: detect_file_format", "Cargo.toml: elf"]}
{"id": "C107", "title": "Every line of the info command's report says what is the case", "statement": "When the info command finds a signing block, it prints exactly the lines that are true: the size of the file, the place and size of the block, one entry per pair saying what the pair is (with the number of sections where it is a section list), then either why no V2 signature could be judged or the four findings about it with certificate, chain and warnings, and then, only if the stamp's signature is valid, the findings about the stamp and its certificate. The lines about the stamp come last. Without a block it prints the size of the file and that there is no block, and fails with the reader's reason.", "quantifier": "all files, all environments, trust stores and times, both build profiles, every possible line", "why_tests_cant": "A test compares the output on a few files; that no line is ever printed falsely or left out is a statement about every file and every verdict.", "anchors": ["src/cli/info.rs: execute", "src/cli/cert.rs: describe_chain"]}
{"id": "C108", "title": "What 32-bit devices read and accept", "statement": "Of a file below 4 GiB (less the longest possible end record) a 64-bit build reads a signing block exactly when a 32-bit build reads that block and the block says what the file says: both block sizes and the size of every pair are the 64-bit numbers written in the file, and no list is said to be about 4 GiB long. The two builds agree on which files have no block; every content digest the 64-bit build determines, the 32-bit build determines too, and up to 2 GiB so it does what is left when the signature is taken off. What the 32-bit build determines beyond that comes from such a block in which a size is not what is written or a list is said to be about 4 GiB long. What the verify command accepts on 64 bits it accepts on 32 bits, unless signed data is said to take 2 GiB or more; what it accepts on 32 bits only are files in which a size is not what is written or a list is said to be about 4 GiB long. The differences are real: there is a file only the 32-bit build accepts, one on which it panics with overflow checks and reads an empty list without, and files on which it panics with either setting, among them one the 64-bit build accepts. Of files of 4 GiB or more it sees only a prefix, as long as the remainder of the length by 4 GiB.", "quantifier": "all files, all environments, trust stores, root files and times, both build profiles, the two widths of usize", "why_tests_cant": "Tests run on one architecture; that two widths of machine word agree on every file, and on exactly which files they do not, is a statement about all files.", "anchors": ["src/signing_block/mod.rs: from_reader", "src/signing_block/mod.rs: extract_values", "src/utils.rs: read_size_u64", "src/signing_block/elf_section_info.rs: parse", "src/file_formats/module/mod.rs: get_signing_block", "src/file_formats/module/zip.rs: find_eocd", "src/cli/verify.rs: execute"]}
{"id": "C109", "title": "Every line the sign command prints says what is the case", "statement": "The sign command prints exactly the lines that are true: that a V2 or stamp key is loaded, the format the file is recognised as, the regions that are hashed, the number of digests needed, each digest as it is begun (which it is only when those before it are done), that the digests are done, that it is signing, the size of the block as it is in the output, that it is writing, and success. The lines come in this order, each once, except those for regions and digests, which come in the order of the regions and of the needed digests. The last line is printed exactly if the exit status is 0.", "quantifier": "all machines, file systems, arguments, clocks and both build profiles, every possible line", "why_tests_cant": "A test compares the output of a few runs; that no line is ever printed falsely or left out is a statement about every file, every failure and every key.", "anchors": ["src/cli/sign.rs: execute"]}
{"id": "C110", "title": "Every line the digest command prints says what is the case", "statement": "The digest command, with and without --dump, prints exactly the lines that are true: the format of the file, the regions in their order with their total, then the name of the hash and the digest, or the number of bytes written to the dump, which is the length of the output. The lines come in this order. In builds with overflow checks the listing ends with the region whose size makes the total exceed 64 bits; without, the total is that of the sizes modulo 2^64.", "quantifier": "all machines, file systems and arguments, both build profiles, every possible line", "why_tests_cant": "It ranges over every file and every failure, including ELF files whose sections are larger than any real file.", "anchors": ["src/cli/digest.rs: execute, dump_regions"]}
{"id": "C111", "title": "One handle for both formats", "statement": "A file opened through SignableFile has the format that detection gives, whatever sections are selected. It has no block, or a given block, exactly if that is so for its format: the block in force in a module, the .ksu_sign section in an ELF file. A module written through the handle is opened as a module again exactly if what is written does not begin like an ELF file, which is so if the old block, if any, stands directly before the directory with at least four bytes before it; then the block is read back. An ELF file written through the handle is opened as an ELF file again and the block is read back, for every accepted selection of sections. Without those four bytes a module can be written that begins like an ELF file and cannot be opened any more.", "quantifier": "all files, selections, blocks and both build profiles; for writing, modules whose end record hides no other one and that stay below 4 GiB, and the ELF files of C99", "why_tests_cant": "It relates detection, reading and writing on every file of either format.", "anchors": ["src/signable.rs: SignableFile, open, detect_file_format, format, signing_block, write_with_signature, set_elf_sections"]}
{"id": "C112", "title": "Commands without ELF support", "statement": "On every file that does not start with the ELF magic, the sign and digest commands of a build without ELF support do the same as those of the full build: same output file, same text, same failure, for every signer, section argument and clock, in place or not. The one exception is a file whose block has a pair with the id of a section list that is none: the full build refuses it and leaves the output alone, the other can sign it. A file with the ELF magic and without an end record is refused by the build without ELF support, with the output untouched. The info command prints the same lines in both builds, except that a section list is shown as an unknown block; where the full build finds no block the other prints the same and fails, too, with the same exception.", "quantifier": "all files, signers, clocks, section arguments, output formats and both build profiles", "why_tests_cant": "It compares two builds of the program on every file.", "anchors": ["src/cli/sign.rs: execute", "src/cli/digest.rs: execute, dump_regions", "src/cli/info.rs: execute", "src/signable.rs: SignableFile::open, digest_regions, write_with_signature, detect_file_format", "src/signing_block/mod.rs: ValueSigningBlock::parse"]}
{"id": "C113", "title": "Exactly which files make a development build panic", "statement": "A release build never panics while it looks for a signing block, parses one, computes a digest, lists the digested regions, verifies a module or runs the verify and info commands. A build with debug assertions and overflow checks panics in exactly these cases. Looking for the block of a module: the file has an end record in force, and the last magic before the directory offset (with its size field inside the last 16 MiB) closes a block whose size field is plausible (24 bytes to 16 KiB, leading back into the file) but differs from the number stored where the block would start. Digest, regions and digest command: the same, or the directory starts after the end record. Verification in the library: the same, or the block reaches beyond the end record and carries a content digest; the verify command: with or without a digest, provided the given root certificate loads. Info command: such a block at the end of the file, whatever the end record says. Parsing bytes: such a block, or a last magic among the first eight bytes or behind a size field below 16. The exit status of the verify and info commands is 101 exactly then. On every other file both builds find the same block and compute the same digests.", "quantifier": "all file contents, environments, algorithms, roots, times and both build profiles", "why_tests_cant": "It is an equivalence over every file; panics sit on rare combinations of two size fields far apart.", "anchors": ["src/signing_block/mod.rs: SigningBlock::from_reader, from_u8, parse_full_block", "src/file_formats/module/mod.rs: Module::get_signing_block, digest, verify_full, verify_with_roots", "src/file_formats/module/digest.rs: digest_module", "src/signable.rs: digest_regions", "src/cli/verify.rs: execute", "src/cli/info.rs: execute", "src/cli/digest.rs: execute", "src/main.rs: main"]}
{"id": "C114", "title": "Exactly when signing panics", "statement": "The signer of a development build panics exactly where the signer of a release build refuses because too few bytes are left for padding; everywhere else both return the same, and a release build's signer never panics. Writing a module with a new block panics exactly if looking for its present block does (C113). The sign command on a module never panics in a release build; in a development build it panics exactly if computing the digest of the file does (C113), or the signer does on the digests of the file's regions, in place or not. On an ELF file it panics exactly if the result would be longer than memory can hold, or, in a development build, the signer does on the digests of the selected sections.", "quantifier": "all files, blocks, signers, clocks, section arguments, environments and both build profiles", "why_tests_cant": "It is an equivalence over every file and every signer; the panics depend on the exact size of certificates and signatures modulo 4096 and on damaged files.", "anchors": ["src/signer.rs: ModuleSigner::sign", "src/signing_block/mod.rs: SigningBlock::new_with_padding", "src/signable.rs: write_with_signature", "src/cli/sign.rs: execute", "src/file_formats/elf/mod.rs: write_with_signature"]}
{"id": "C115", "title": "Exactly when the program crashes", "statement": "Every command ends with status 0 (success), 1 (an error) or 101 (a panic). The digest command, with or without --dump, ends with 101 exactly in a development build, if the input is a readable module, no sections are given and the module is damaged (C113: two different size fields, or a block that reaches beyond the end record), or if it is an ELF file whose selected sections have sizes with a sum of at least 2^64. The sign command ends with 101 exactly if the credentials load, the input can be read, and: in a development build the module is damaged, or the block for the file would end less than 12 bytes before a multiple of 4096 with padding asked for; or, in any build, the output can be created and the signed ELF file would be longer than memory can hold. The verify and info commands: see C113. So a release build crashes only while it writes such an ELF file.", "quantifier": "all machines, build profiles, file systems, times and commands with all their options (inputs shorter than 2^63 bytes)", "why_tests_cant": "It is an equivalence over every content of every file that is read, every certificate and signature size and every file system.", "anchors": ["src/main.rs: main", "src/cli/mod.rs: execute", "src/cli/sign.rs: execute", "src/cli/digest.rs: execute", "src/signer.rs: ModuleSigner::sign", "src/signing_block/mod.rs: SigningBlock::new_with_padding"]}
{"id": "C116", "title": "What a command line means", "statement": "A command line is a subcommand (sign, verify, info, digest) and its arguments: options, alone, as `--name value` or `--name=value`, in any order and place; other arguments; and perhaps `--` with more arguments that are never options. It runs a command exactly if every option is one the subcommand has, options with one value have exactly one that does not look like an option (or is attached with `=`), none of them and no switch is given twice, paths are not empty, the format is hex or base64, not both of --sha256 and --sha512 are given, and the other arguments are as many as the subcommand takes; then the command is the one with these values, and the section names are all values of --elf-section taken apart at commas. Every argument behind --elf-section up to the next option is a section name, never a file. A line with an option the subcommand does not have runs nothing: so the --algorithm option of the signing guide is refused. A line asks for help or the version exactly as described by a second grammar. The exit status is the command's; 0 after help; and 2 exactly if the line neither says nor asks anything, and then, as after help, no file changes. The commands that can be given are exactly those without empty paths, with text as passwords and without commas in section names.", "quantifier": "all command lines, that is all sequences of Unicode arguments, all machines, file systems and times", "why_tests_cant": "It is an equivalence over all command lines, with any number of options in any order.", "anchors": ["src/cli/mod.rs: Cli, Commands, parse_args", "src/cli/sign.rs: SignArgs", "src/cli/verify.rs: VerifyArgs", "src/cli/info.rs: InfoArgs", "src/cli/digest.rs: DigestArgs, OutputFormat", "src/main.rs: main", "docs/signing_guide.md"]}
{"id": "C117", "title": "What the exit status of a command line tells", "statement": "`ksusig verify …` exits with 0 exactly if its arguments ask for help, or name a module that is accepted (all V2 signers, at least one, and the first source stamp are good for its content under the root given, or the built-in one). So a script cannot rely on the status for any file name: `ksusig verify NAME` exits with 0 for every name that is --help, or starts with -h or -vh, whatever the files are. With `--` before the name (and the root attached with `=`), the status is 0 exactly if the module of that name is accepted. `ksusig sign …` exits with 0 only if it asks for help, or the output it names is the signed input. Only the file a line names as output can change, over any session of lines. After a line that signed a module with trusted credentials and exited with 0, and any lines that write neither the output nor the root certificate, a line that verifies the output exits with 0.", "quantifier": "all command lines and sessions of command lines, all file names, machines, file systems and times", "why_tests_cant": "It is an equivalence over all command lines, file names and contents of all files, and over sessions of any length.", "anchors": ["src/main.rs: main", "src/cli/mod.rs: Cli, parse_args, execute", "src/cli/verify.rs: VerifyArgs, execute", "src/cli/sign.rs: SignArgs, execute"]}
{"id": "C118", "title": "The program in every build", "statement": "In a build without the feature keystore there is no command `sign`, in one without verify none of `verify` and `info`: a line that gives such a command, or asks for the help on it, exits with 2 and changes no file. Every other line means the same in every build, and with ELF support does the same. Without ELF support it does the same, too (exit status, files and printed digest), unless the file it is about has a block with a pair that has the id of a section list and is none, or starts like an ELF file and is to be signed, digested or dumped; an ELF file that is not an archive as well is refused then and no file changes. What succeeds in the full build on a file that does not start like an ELF file succeeds in all builds that have the command, with the same result. In every build only the file a line names as output can change. A module signed with one build is accepted by every other, after any lines in any builds that do not write it or the root certificate.", "quantifier": "all choices of the features keystore, verify and elf, all command lines and sessions with a build for each line, machines, file systems and times", "why_tests_cant": "Tests run in one build. It compares eight builds on all command lines and all contents of all files, over sessions of any length.", "anchors": ["Cargo.toml: features", "src/main.rs: main", "src/cli/mod.rs: Cli, Commands, parse_args, execute", "src/cli/sign.rs: execute", "src/cli/digest.rs: execute", "src/signable.rs: detect_file_format"]}
{"id": "C119", "title": "The words that decide between unsigned and damaged", "statement": "Whether a module is treated as unsigned or as damaged is decided by looking for the words \"Magic not found\" and \"Module is raw\" in the text of the error. Whatever sizes and positions from the file are printed in that text, and whatever prefixes are added on the way, these words occur in it exactly if the search for the magic failed or the module was opened as raw. For a file with an end record that is exactly if no magic is where signatures are looked for: the text of a damaged block never reads as unsigned.", "quantifier": "all files (also when they change between the two times they are read), module handles, errors and texts these errors can have", "why_tests_cant": "The texts contain numbers taken from the file; there are as many of them as files, and one that happens to contain the words would let a damaged signature pass for a missing one.", "anchors": ["src/file_formats/module/mod.rs: Module::get_offsets, Module::get_signing_block", "src/signable.rs: maybe_missing_signature", "src/signing_block/mod.rs: SigningBlock::from_reader, SigningBlock::parse_full_block, ValueSigningBlock::parse", "src/utils.rs: MyReader::get_to, MyReader::read_u32", "src/file_formats/module/zip.rs: find_eocd"]}
{"id": "C120", "title": "Signing on 32-bit devices", "statement": "For every module below 2 GiB whose signing block a 64-bit machine reads, or which it finds to be unsigned, the sign command ends the same way on 32-bit and 64-bit machines and leaves the same bytes behind. So what a 64-bit machine signs a 32-bit machine signs alike; conversely what a 32-bit machine signs a 64-bit machine signs alike, unless the input has a signing block that 32-bit machines read with sizes other than written in the file or with a list said to be almost 4 GiB long (there is such a file, which only 32-bit machines sign). A module signed on either is accepted by both under the conditions under which signing gives an accepted module at all. A 32-bit machine signs no file of 2 GiB or more, and from there to just below 4 GiB, where a 64-bit machine signs the file to another one, it empties that output before it reports the error.", "quantifier": "all files, signers with known algorithms, clocks, build profiles, in place or to another file", "why_tests_cant": "The machines differ in arithmetic that wraps or not; agreement is about all files of up to 4 GiB and all sizes written in them.", "anchors": ["src/cli/sign.rs: execute", "src/signable.rs: write_with_signature, digest_regions", "src/file_formats/module/mod.rs: Module::get_raw_module, Module::get_offsets", "src/file_formats/module/digest.rs: digest_module"]}
{"id": "C121", "title": "Reading the reports as text", "statement": "A script that reads the output of the verify command line by line learns the result: the line \"✓ Module signature verification successful!\" is on standard output exactly if verification succeeded, and standard error is empty exactly then. The lines \"✓ V2 signature verification passed\" and \"✓ Source Stamp verification passed\" mean exactly what they mean in the report (the first does not say that the signer is trusted or that the content was compared), and every line \"    Certificate: …\" describes a certificate of the report with its true length, or says that it cannot be decoded. The lines with a flag (\"    Trusted: true\" for a signer, \"  Digest valid: false\" for all signers together or a source stamp that passed, and so on) are there exactly for the flags of the report. The info command prints \"✓ KSU signing block found\" exactly if there is a block, never prints \"  Content integrity verified: true\", and prints \"  Trusted: true\" exactly if all V2 signers or a correctly signed source stamp are trusted. No text taken from certificates, algorithms, sizes or library messages can forge any of these lines, as long as it has no line breaks. File names are printed as they are: a file whose name contains a line break and the success line has that line in its output, whatever the result.", "quantifier": "all files, roots, clocks, verbosity, file names, descriptions of certificates and messages of libraries without line breaks (and, for the exception, all file names)", "why_tests_cant": "The lines are assembled from text of certificates, numbers and error messages; that none of them can be mistaken for a line about the result is about all such texts.", "anchors": ["src/cli/verify.rs: execute", "src/cli/info.rs: execute", "src/cli/cert.rs: describe_certificate, describe_chain", "src/main.rs: main", "src/verifier.rs: VerifyError, TrustedRoots::with_builtin, SignatureVerifier::verify_v2_with_digest, SignatureVerifier::verify_source_stamp_with_digest"]}
{"id": "C122", "title": "The quick verification functions", "statement": "verify_with_roots_and_digest returns a result with all four flags set exactly if the block has V2 signers and every one of them is signed, all its signatures are correct, their digests are those the caller added last for their algorithms, and its first certificate has its key and is trusted with exactly the roots the caller added. verify_with_digest does the same with the built-in certificate alone, and accepts nothing if that cannot be read. That either returns Ok means less: only that there are signers and none is refuted by the signatures up to the first one without a stored digest; it does not depend on roots or clock. Source stamps and unknown values in the block make no difference. has_v2 and has_source_stamp say whether there is a V2 signer and a stamp, whatever the verdicts are.", "quantifier": "all signing blocks, all sequences of add_digest and of additions to the roots, all clocks and outcomes of the cryptographic and PKI libraries", "why_tests_cant": "The functions are one-line combinations whose meaning is over all blocks, contexts and trust stores; dropping the context or the roots is invisible to tests that only pass valid modules.", "anchors": ["src/verifier.rs: verify_with_digest, verify_with_roots_and_digest, DigestContext, VerifyAllResult", "src/lib.rs: verify_with_digest, verify_with_roots_and_digest"]}
{"id": "C123", "title": "Reading the output of the sign command as text", "statement": "A script that reads the output of the sign command line by line learns what happened: \"✓ Signing successful!\" is on standard output exactly if the exit status is 0, and standard error is empty exactly then. The names of input and output are there, each with its role, that of the output again exactly on success. Every other line (keys loaded, format, each region with its offset and size, each algorithm, the size of the block, the steps) is there exactly if the command said so, so that with the same file names two runs with the same text said exactly the same. No name of a section, number or algorithm can make one line read like another. This needs that the names of the two files and the sections asked for have no line breaks: a file name that contains a line break and the success line puts that line into the output, whatever the result.", "quantifier": "all machines, file systems, arguments, clocks, both build profiles, all names without line breaks (and, for the exception, all names)", "why_tests_cant": "Names of sections, offsets and sizes are free; that no choice of them makes a line look like another is about all of them.", "anchors": ["src/cli/sign.rs: execute", "src/main.rs: main", "src/signing_block/algorithms.rs: Algorithms"]}
{"id": "C124", "title": "Reading the output of the digest command as text", "statement": "A script that takes the standard output of the digest command gets the digest and nothing else: on success it is the digest in the chosen form, which has no space or line break in it, and one line break; on failure, and always with --dump, it is empty. On standard error of a run that succeeds, the lines for the name of the file, the format, the hash, each region with offset and size, their total and the number of bytes dumped are there exactly if this is the case; the line with the number of bytes gives the size of the file written, modulo 2^64. If the command fails with an error, what was listed before is there all the same, and then a line beginning with \"Error: \". This needs that file names and the sections asked for have no line breaks: the name of a file that can be opened can put any line on standard error, but nothing on standard output.", "quantifier": "all machines, file systems, arguments, both build profiles, all names without line breaks (and, for the exception and for standard output, all names)", "why_tests_cant": "Names of sections, offsets and sizes are free; that no choice of them makes a line look like another, and that no file adds anything to standard output, is about all of them.", "anchors": ["src/cli/digest.rs: execute", "src/cli/digest.rs: dump_regions", "src/cli/digest.rs: hex_encode", "src/main.rs: main"]}
{"id": "C125", "title": "Digests taken through a reader that delivers less than asked for", "statement": "digest_module takes any reader. The digests that readers delivering the same file can give are exactly those over the ways to cut entries and directory into pieces of one byte to 1 MiB. A reader that always delivers 1 MiB, or all that is left, gives the digest of the file; one that delivers less even once gives another digest, up to hash collisions. It never makes a changed module look intact: whatever the two readers, equal digests mean equal entries, directory and end record (with the offset replaced), or a collision that can be read off from the two cuts.", "quantifier": "all files that divide into entries, block, directory and end record, all readers (all sequences of read sizes), both build profiles, all algorithms with values of fixed length", "why_tests_cant": "A file on disk always fills the buffer, so tests with files see one cut; the claim is about every reader and every cut.", "anchors": ["src/file_formats/module/digest.rs: digest_module", "src/file_formats/module/digest.rs: digest_zip_contents", "src/file_formats/module/digest.rs: digest_central_directory", "src/file_formats/module/digest.rs: digest_final_digest"]}
{"id": "C126", "title": "The anatomy of a module in the build without ELF support", "statement": "A build without ELF support returns a block, calls a module unsigned, digests, strips, signs and verifies it exactly under conditions on the bytes of the file: the end record in force, the last magic before the offset it gives, a block that fits it, and pairs that follow the grammar without section lists. Its sign command writes the input with the new block inserted, and nothing else; what it writes is accepted by the verify command of both builds if nothing follows the end record of the input and its old block, if any, stands directly before the directory, and otherwise by neither, with any root and at any time, up to hash collisions. This holds also for modules the full build refuses because of a pair that has the id of a section list and is none: every block the full build reads this one reads at the same place, and it reads no others but these.", "quantifier": "all files below 2^64 bytes, both build profiles, all keys, certificates and signers, all clocks, root certificates and times", "why_tests_cant": "The equivalences exclude every other file; the claims on signing and verifying range over all contents, all keys and all hash functions.", "anchors": ["src/file_formats/module/mod.rs: get_signing_block, get_raw_module", "src/signing_block/mod.rs: from_reader, from_u8", "src/file_formats/module/digest.rs: digest_module", "src/signable.rs: Signable", "src/cli/sign.rs: execute", "src/cli/verify.rs: execute"]}
{"id": "C127", "title": "The printed form of a signing block", "statement": "A signing block can be printed. The text says where the block is, its sizes, how many values it has, and for each value, in order and with its number, the kind, the identifier with eight hex digits and the number of signers, sections or bytes. Each such line is in the text exactly if it is true of the block: a value that was not decoded never reads as a signature, whatever its identifier is, and padding is what has the identifier of padding. Two blocks have the same text exactly if they agree in all this; so signatures, certificates, digests and data cannot be told from it. For a block read from a module the position is that of its bytes in the file, and the sizes are those written there.", "quantifier": "all signing blocks and values, built, edited or read, all files and both build profiles for the last sentence", "why_tests_cant": "Printed numbers and identifiers could run together or a value could imitate the line of another one for some combination of numbers; tests see a few texts.", "anchors": ["src/signing_block/mod.rs: fmt, SigningBlock, ValueSigningBlock"]}
{"id": "C128", "title": "What signing shows of keys, passwords, file names and the clock", "statement": "The sign command uses each private key for two things only: to derive its public key and to sign one message, and that message is fixed by the input, the certificates, the algorithms and (for a stamp) the time, not by the keys. Everything the command prints except the names of the files, the bytes it writes and whether it succeeds are the same for any other run whose input has the same bytes, whose output can be created equally and coincides with the input equally, and whose credentials load (or fail to load) to the same certificates and algorithms with keys that have the same public key and give the same signature for that one message. So the output does not depend on the format or name of the credential files, on the password, on anything else in those files, on the chain behind the stamp's certificate, or on the names of the input and output. The messages are the signed data found in the block that is made. The same holds for signing through the library and for adding a stamp to an existing block. Without a stamp (or with the time stamp switched off) nothing depends on the clock.", "quantifier": "every machine and cryptography (with deterministic signatures), every pair of file systems, credentials, file names, section lists and clocks", "why_tests_cant": "That something leaves no trace is a statement about pairs of runs over all keys, passwords and inputs; a test compares two particular runs.", "anchors": ["src/cli/sign.rs: execute, SignArgs", "src/signer.rs: sign, add_source_stamp, ModuleSigner, V2Signer, SourceStampSigner", "src/keystore.rs: SignerCredentials, load_pem, load_p12"]}
{"id": "C129", "title": "The digest and info commands on 32-bit devices", "statement": "For every module below 4 GiB (less the longest possible end record) whose signing block a 64-bit machine reads, or which it finds to be unsigned, the digest command prints the same digest on 32-bit and 64-bit machines or fails on both, and a dump succeeds on both with the same bytes or fails on both in the same way. So every digest and every successful dump of a 64-bit machine is one of a 32-bit machine; conversely too, unless the file has a signing block that 32-bit machines read with sizes other than written in the file or with a list said to be almost 4 GiB long. For every file below 4 GiB in which the info command finds a block on a 64-bit machine, it prints the same lines on a 32-bit machine, or the first of these lines and then panics, which happens only if signed data is said to take 2 GiB or more; what it reports on a 32-bit machine it reports on a 64-bit machine, with the same exception, and both find no block in the same files. The exceptions are real: there is a file whose digest and block only 32-bit machines report, and one on which the info command panics on 32-bit machines. Of a file of 4 GiB or more a 32-bit machine shows the remainder of the length by 4 GiB as its size.", "quantifier": "all files, hash functions, trust stores, times, output formats, both build profiles, in place or to another file", "why_tests_cant": "It compares two machines over all files, including damaged ones of up to 4 GiB; tests run on one machine with small files.", "anchors": ["src/cli/digest.rs: execute, dump_regions", "src/cli/info.rs: execute", "src/signable.rs: digest_regions", "src/signing_block/mod.rs: from_reader"]}
{"id": "C130", "title": "Digesting with offsets given by the caller", "statement": "For every file and all six offsets below 2^63, digest_module panics exactly if the end record is said to end before it starts or, in a development build, any region is; otherwise it fails if fewer than 20 bytes follow the start of the end record; otherwise it returns the two-level hash of three parts: the content region, the directory region, and everything from the start of the end record to the end of the file with bytes 16 to 20 replaced by the end of the content. In a release build a content or directory region given the wrong way round is read from its start to the end of the file. The end of the end record has no influence on the digest. Unless the development build panics, both builds agree. For any list of sections, overlapping or outside the file or not, digest_elf_sections returns the two-level hash of their contents as far as they lie in the file, in the given order; the names have no influence, and sections without contents or outside the file can be added anywhere without changing the digest.", "quantifier": "all files below 2^63 bytes, all offsets below 2^63, all hash functions, both build profiles, all readers that fill their buffer (for the digest; all readers for the rest)", "why_tests_cant": "The function is public and takes six independent numbers; tests cover a few consistent ones.", "anchors": ["src/file_formats/module/digest.rs: digest_module, digest_zip_contents, digest_central_directory, digest_end_of_central_directory", "src/file_formats/module/zip.rs: FileOffsets", "src/file_formats/elf/digest.rs: digest_elf_sections"]}
{"id": "C131", "title": "How long signed files are, and what becomes of earlier signatures", "statement": "A signed module is as long as the archive without any earlier block, up to the end of its end record, plus one block of 32 to 16392 bytes; with padding the block has 4096, 8192, 12288 or 16384 bytes. However often an ordinary module is signed, the result is at most 16392 bytes longer than the archive. An ELF file, on the contrary, grows with every signing: each adds at least 32 bytes, nothing behind the ELF header is removed or overwritten, and after any number of signings every block ever written still stands in the file, behind the original file, one after the other.", "quantifier": "all files below 2^64 bytes (ELF: 2^63), all signers, all times, all section names, all build profiles, all sequences of sign commands of any length", "why_tests_cant": "It is a claim about histories of any length: a test signs a file once or twice and looks at the last signature.", "anchors": ["src/file_formats/elf/mod.rs: ElfFile::write_with_signature", "src/signing_block/mod.rs: SigningBlock::new_with_padding", "src/signable.rs: SignableFile::write_with_signature", "src/cli/sign.rs"]}
{"id": "C132", "title": "How much space signing an ELF file takes", "statement": "If an ELF file already has a signature section, signing it writes at most twice its length, plus the length of the block and 70 bytes. If it has none, signing writes at most three times its length, plus the length of the block, 143 bytes and the alignment that the file itself demands in the header of its name table, and at least as many bytes as that alignment. So the space is not bounded by the length of the file: there is a file of 360 bytes for which signing, memory permitting, writes more than 2^62 bytes.", "quantifier": "all ELF files below 2^63 bytes, all blocks, all section names", "why_tests_cant": "A bound on the output over all inputs is not something samples can show, and the alignment field of ordinary files is 1.", "anchors": ["src/file_formats/elf/mod.rs: ElfFile::write_with_signature, append_aligned, align_to"]}
{"id": "C133", "title": "What the signature of an ELF file does not cover", "statement": "The signing block found in an ELF file, the selected sections and all digests depend only on these bytes: the first six, the fields e_shoff, e_shnum and e_shstrndx of the ELF header, the section headers, the section names, the section with the block and the selected sections. All other bytes can be changed, and bytes can be added at the end: if the file can still be opened, the same block is found, the same sections are selected and all digests are the same. In particular the entry point of every file whose section headers and sections lie behind the ELF header can be changed at will without the signature noticing.", "quantifier": "all ELF files below 2^63 bytes, all changes outside these bytes, all section names, all hash functions, both build profiles", "why_tests_cant": "It is a claim about all changes of all files; a test can show single changes that are not noticed, not where the border runs.", "anchors": ["src/file_formats/elf/mod.rs: ElfFile::get_signing_block, ElfFile::digest", "src/file_formats/elf/digest.rs: digest_elf_sections"]}
{"id": "C134", "title": "A source stamp can stand in for a V2 signature, but not the other way round", "statement": "Nothing in the signed bytes says whether they belong to a V2 signature or to a source stamp. From a module that the sign command gave a source stamp anyone can, without a key, make one that the verify command accepts as carrying a V2 signature by the stamp's key: the bytes of the stamp, preceded by their length, are put in a pair with the V2 id (they must not exceed 16344 bytes), under every root and at every time the stamp's certificate is trusted. If only the stamp was made, the module as signed is refused by the verify command. Conversely the signed bytes of a V2 signature made by this tool, which end in four extra zero bytes, are not the signed bytes of any source stamp the decoder can return.", "quantifier": "all modules without a block-like magic in their entries, all signers with a source stamp, all keys, certificates, digests, clocks, roots and times; all byte strings a source stamp can be decoded from", "why_tests_cant": "The first part holds for every module, key and root, and is an attack no test of the signer or the verifier looks for; the second says that no stamp at all has the signed bytes.", "anchors": ["src/verifier.rs: SignatureVerifier::verify_v2_with_digest, SignatureVerifier::verify_source_stamp_with_digest", "src/signing_block/scheme_v2.rs: SignedData::new, SignedData::to_u8", "src/signing_block/source_stamp.rs: SignedData::to_u8", "src/signer.rs: V2Signer, SourceStampSigner", "src/cli/verify.rs: execute"]}
{"id": "C135", "title": "Which signatures a module carries together is not authenticated", "statement": "Whether the verify command accepts a module is decided signer by signer: with a given block it is accepted exactly if the block holds a V2 signer, each of its V2 signers occurs in some block the same archive is accepted with, and its first source stamp, if it has one, is the first of some such block. So anyone can, without a key, take V2 signers (all but one) and the source stamp away, repeat and reorder signers, add blocks that are not understood, and put the contents of two accepted blocks together: the result is accepted under the same root at the same time. The library's verdict on a block of either format with given digests is decided signer by signer in the same way.", "quantifier": "all archives below 4 GiB whose end record hides no other complete one, all block contents the decoder accepts, all roots, times, keys and hash functions, both build profiles", "why_tests_cant": "It is a characterisation over all blocks that could be put into a module; tests only see blocks the signer makes.", "anchors": ["src/verifier.rs: SignatureVerifier::verify_v2_with_digest, SignatureVerifier::verify_source_stamp_with_digest", "src/cli/verify.rs: execute", "src/signing_block/mod.rs: SigningBlock"]}
