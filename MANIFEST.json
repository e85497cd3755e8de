{
 "claims": [
  {
   "property": "C01",
   "status": "proved",
   "theorems": [
    "Ksusig.Props.C01_roundtrip_new",
    "Ksusig.Props.C01_roundtrip_new_with_padding",
    "Ksusig.Props.C01_alias_not_preserved"
   ],
   "note": "Exact block equality for both constructors, any build profile. Algorithm values Unknown(0x0201)/Unknown(0x0202) are excluded and shown not to survive."
  },
  {
   "property": "C02",
   "status": "proved",
   "theorems": [
    "Ksusig.Props.C02_layout_new",
    "Ksusig.Props.C02_layout_new_with_padding",
    "Ksusig.Props.C02_layout_recalculate",
    "Ksusig.Props.C02_frame_fields"
   ],
   "note": "Byte-exact layout against an independent wire-format specification; also after recalculate_size."
  },
  {
   "property": "C03",
   "status": "proved",
   "theorems": [
    "Ksusig.Props.C03_padding_content",
    "Ksusig.Props.C03_padding_aligned"
   ],
   "note": "Content preservation for arbitrary values; alignment of the bytes for constructor-built content."
  },
  {
   "property": "C04",
   "status": "partial",
   "theorems": [
    "Ksusig.Props.C04_dev_panics",
    "Ksusig.Props.C04_exact_outcome_partial",
    "Ksusig.Props.C04_release_never_panics_partial"
   ],
   "note": "False in dev builds (C04_dev_panics: error message underflows). Exact outcome in both profiles and the full claim for release builds are proved."
  },
  {
   "property": "C05",
   "status": "partial",
   "theorems": [
    "Ksusig.Props.C05_writer_limit_partial",
    "Ksusig.Props.C05_elf_path_unreadable"
   ],
   "note": "False for the ELF path (C05_elf_path_unreadable). Proved for SigningBlock::new/new_with_padding."
  },
  {
   "property": "C06",
   "status": "partial",
   "theorems": [
    "Ksusig.Props.C06_dev_panics_from_u8",
    "Ksusig.Props.C06_dev_panics_from_reader",
    "Ksusig.Props.C06_from_u8_release_partial",
    "Ksusig.Props.C06_from_reader_release_partial",
    "Ksusig.Props.C06_from_u8_dev_partial",
    "Ksusig.Props.C06_from_reader_dev_partial"
   ],
   "note": "False in dev builds (C06_dev_panics_*: unsigned underflow and debug_assert on untrusted sizes). Release builds: full claim proved for from_u8 and from_reader. Dev builds: outcome equals release except for a characterised set of panics. C113 gives the exact condition of the panics."
  },
  {
   "property": "C07",
   "status": "proved",
   "theorems": [
    "Ksusig.Props.C07_from_u8",
    "Ksusig.Props.C07_from_reader"
   ],
   "note": "Both entry points. from_u8 reports offsets relative to the block; only from_reader reports the file position."
  },
  {
   "property": "C08",
   "status": "partial",
   "theorems": [
    "Ksusig.Props.C08_signed_bytes_malleable",
    "Ksusig.Props.C08_checked_bytes_not_in_file",
    "Ksusig.Props.C08_constructor_built_partial"
   ],
   "note": "False (C08_signed_bytes_malleable, C08_checked_bytes_not_in_file): inner sizes are re-serialised, not kept. Proved for blocks written with the constructors."
  },
  {
   "property": "C09",
   "status": "proved",
   "theorems": [
    "Ksusig.Props.C09_raw_preserved",
    "Ksusig.Props.C09_raw_preserved_reader",
    "Ksusig.Props.C09_raw_written_and_read"
   ],
   "note": "Position-wise, for both entry points; plus existence of every unstructured block."
  },
  {
   "property": "C10",
   "status": "partial",
   "theorems": [
    "Ksusig.Props.C10_reserve_unbounded",
    "Ksusig.Props.C10_reserialise_unbounded",
    "Ksusig.Props.C10_stored_bounded_partial",
    "Ksusig.Props.C10_stored_bounded_reader_partial"
   ],
   "note": "False (C10_reserve_unbounded, C10_reserialise_unbounded). Proved for the data a decoded block holds."
  },
  {
   "property": "C11",
   "status": "proved",
   "theorems": [
    "Ksusig.Props.C11_algorithm_ids",
    "Ksusig.Props.C11_display",
    "Ksusig.Props.C11_unknown_text"
   ],
   "note": "All u32 values."
  },
  {
   "property": "C12",
   "status": "proved",
   "theorems": [
    "Ksusig.Props.C12_record_is_real",
    "Ksusig.Props.C12_no_record_missed"
   ],
   "note": "Both directions: a returned record is real and last; a missing one means there is none in the search range."
  },
  {
   "property": "C13",
   "status": "proved",
   "theorems": [
    "Ksusig.Props.C13_record_found"
   ],
   "note": "Also with trailing bytes inside the search range."
  },
  {
   "property": "C14",
   "status": "proved",
   "theorems": [
    "Ksusig.Props.C14_block_found"
   ],
   "note": "Arbitrary bytes around the block; both profiles."
  },
  {
   "property": "C15",
   "status": "partial",
   "theorems": [
    "Ksusig.Props.C15_nested_block_returned",
    "Ksusig.Props.C15_unsigned_partial",
    "Ksusig.Props.C15_last_magic_partial"
   ],
   "note": "False (C15_nested_block_returned): a block nested in the entries is taken for the module's own. Proved when the entries carry no magic; for every file the returned block is framed, before the directory and carries the last magic."
  },
  {
   "property": "C16",
   "status": "partial",
   "theorems": [
    "Ksusig.Props.C16_tamper_evident_dev",
    "Ksusig.Props.C16_tamper_evident_partial",
    "Ksusig.Props.C16_release_collision"
   ],
   "note": "Full claim in dev builds; in any build for files whose directory does not start beyond the end record. False in release builds otherwise (C16_release_collision)."
  },
  {
   "property": "C17",
   "status": "partial",
   "theorems": [
    "Ksusig.Props.C17_digest_unchanged_by_signing_partial",
    "Ksusig.Props.C17_signed_versions_agree",
    "Ksusig.Props.C17_nested_block_differs"
   ],
   "note": "False for entries with a nested block (C17_nested_block_differs). Proved for entries without the magic, and between any two signed versions."
  },
  {
   "property": "C18",
   "status": "proved",
   "theorems": [
    "Ksusig.Props.C18_regions_partition",
    "Ksusig.Props.C18_regions_partition_dev",
    "Ksusig.Props.C18_digest_covers_regions"
   ],
   "note": "Positions counted one by one; dev builds need no extra condition."
  },
  {
   "property": "C19",
   "status": "partial",
   "theorems": [
    "Ksusig.Props.C19_full_reads_agree_partial",
    "Ksusig.Props.C19_short_reads_change_digest"
   ],
   "note": "False for readers with short reads (C19_short_reads_change_digest). Proved for readers that fill the buffer. C125 says exactly what other readers get."
  },
  {
   "property": "C20",
   "status": "partial",
   "theorems": [
    "Ksusig.Props.C20_offset_not_authenticated",
    "Ksusig.Props.C20_block_before_offset_partial"
   ],
   "note": "False (C20_offset_not_authenticated). What holds is that the block ends before the offset with no further magic between."
  },
  {
   "property": "C21",
   "status": "proved",
   "theorems": [
    "Ksusig.Props.C21_any_module",
    "Ksusig.Props.C21_reads_back",
    "Ksusig.Props.C21_spurious_record",
    "Ksusig.Props.C21_signed_reads_back",
    "Ksusig.Props.C21_resigned_reads_back"
   ],
   "note": "C21_reads_back by the end record of the file that is signed; C21_any_module for every file on which signing succeeds, up to offsets beyond 4 GiB and offsets that complete a spurious end record; C21_spurious_record shows the latter exception is real."
  },
  {
   "property": "C22",
   "status": "partial",
   "theorems": [
    "Ksusig.Props.C22_strip_after_sign_partial",
    "Ksusig.Props.C22_strip_signed",
    "Ksusig.Props.C95_strip_after_sign"
   ],
   "note": "Proved for entries without the magic, and for every archive that is already signed. C95_strip_after_sign is the exact condition, for every file: stripping gives the file back if and only if nothing in it looks like a block and nothing follows its end record; false for archives whose entries contain a block."
  },
  {
   "property": "C23",
   "status": "proved",
   "theorems": [
    "Ksusig.Props.C23_resign_replaces_partial",
    "Ksusig.Props.C23_history_exists",
    "Ksusig.Props.C95_last_signing_counts",
    "Ksusig.Props.C95_signing_again_succeeds"
   ],
   "note": "Proved as stated by C95_last_signing_counts and C95_signing_again_succeeds (any module, any content); the _partial theorem is the earlier form for archives without the magic, which also gives the bytes."
  },
  {
   "property": "C24",
   "status": "partial",
   "theorems": [
    "Ksusig.Props.C24_sign_unsigned_partial",
    "Ksusig.Props.C24_sign_signed",
    "Ksusig.Props.C24_nested_block_removed",
    "Ksusig.Props.C24_offset_truncated"
   ],
   "note": "False for nested blocks (C24_nested_block_removed: entry bytes are lost) and near 4 GiB (C24_offset_truncated: success with a wrong offset). Proved otherwise. C92 says for every file what signing writes."
  },
  {
   "property": "C25",
   "status": "partial",
   "theorems": [
    "Ksusig.Props.C25_sign_command",
    "Ksusig.Props.C25_sign_then_verify_partial",
    "Ksusig.Props.C25_nested_block"
   ],
   "note": "False when the entries contain a signing block that is followed by further entry bytes: C25_nested_block shows such a signed file can only verify after a hash collision. Proved for every other module the sign command accepts, including already signed ones. C93 is the exact statement for every module, C94 the one for modules signed twice or more."
  },
  {
   "property": "C26",
   "status": "partial",
   "theorems": [
    "Ksusig.Props.C26_trailing_bytes_lost",
    "Ksusig.Props.C26_trailing_bytes_witness",
    "Ksusig.Props.C26_no_trailing_bytes_partial"
   ],
   "note": "False for every module with trailing bytes, up to hash collisions (C26_trailing_bytes_lost). Proved without trailing bytes. C93 covers trailing bytes exactly."
  },
  {
   "property": "C27",
   "status": "proved",
   "theorems": [
    "Ksusig.Props.C27_valid_v2_verdict"
   ],
   "note": "If and only if, for every environment, root list and context."
  },
  {
   "property": "C28",
   "status": "partial",
   "theorems": [
    "Ksusig.Props.C28_no_signature_is_signature_valid",
    "Ksusig.Props.C28_signature_valid_partial"
   ],
   "note": "False (C28_no_signature_is_signature_valid): a signer or stamp without signatures is reported signature_valid. Proved for signers with signatures; digest_valid in addition implies that there is one."
  },
  {
   "property": "C29",
   "status": "proved",
   "theorems": [
    "Ksusig.Props.C29_one_bad_signer"
   ],
   "note": "Also for the combined verdict."
  },
  {
   "property": "C30",
   "status": "proved",
   "theorems": [
    "Ksusig.Props.C30_no_context"
   ],
   "note": "The combined verdict without context is characterised exactly."
  },
  {
   "property": "C31",
   "status": "proved",
   "theorems": [
    "Ksusig.Props.C31_no_digest",
    "Ksusig.Props.C31_unknown_algorithms"
   ],
   "note": "For every context and root list."
  },
  {
   "property": "C32",
   "status": "proved",
   "theorems": [
    "Ksusig.Props.C32_borrowed_certificate"
   ],
   "note": "For every context and root store, also an absent context."
  },
  {
   "property": "C33",
   "status": "proved",
   "theorems": [
    "Ksusig.Props.C33_trust_from_roots"
   ],
   "note": "For every history of additions, including the built-in root that does or does not decode."
  },
  {
   "property": "C34",
   "status": "partial",
   "theorems": [
    "Ksusig.Props.C34_nothing_signed_is_valid",
    "Ksusig.Props.C34_empty_block_module_is_valid",
    "Ksusig.Props.C34_valid_means_verified_partial"
   ],
   "note": "False (C34_nothing_signed_is_valid, C34_empty_block_module_is_valid): inserting an empty block into any archive gives a valid verdict. The exact meaning of is_valid is proved."
  },
  {
   "property": "C35",
   "status": "proved",
   "theorems": [
    "Ksusig.Props.C35_verify_command"
   ],
   "note": "If and only if, for every environment, root option and file."
  },
  {
   "property": "C36",
   "status": "proved",
   "theorems": [
    "Ksusig.Props.C36_command_agrees_with_library"
   ],
   "note": "If and only if, for every file: given root, unusable root, and built-in root."
  },
  {
   "property": "C37",
   "status": "proved",
   "theorems": [
    "Ksusig.Props.C37_pairs_recorded",
    "Ksusig.Props.C37_pairs_recorded_stamp",
    "Ksusig.Props.C37_signing_needs",
    "Ksusig.Props.C37_output_shape",
    "Ksusig.Props.C37_required_algorithms",
    "Ksusig.Props.C37_no_configuration",
    "Ksusig.Props.C37_signing_succeeds"
   ],
   "note": "Shape, algorithms, failure without configuration, what success needs and what it takes (C37_signing_succeeds, C37_signing_needs); the digest pairs given to sign_with_digests are recorded as they are (C37_pairs_recorded, C37_pairs_recorded_stamp)."
  },
  {
   "property": "C38",
   "status": "proved",
   "theorems": [
    "Ksusig.Props.C38_add_source_stamp",
    "Ksusig.Props.C38_applies"
   ],
   "note": "Holds for every block that was read or built (C38_applies)."
  },
  {
   "property": "C39",
   "status": "proved",
   "theorems": [
    "Ksusig.Props.C39_stamp_signers_agree",
    "Ksusig.Props.C39_defaults_agree"
   ],
   "note": "Equality of outcomes for all arguments, including failures."
  },
  {
   "property": "C40",
   "status": "proved",
   "theorems": [
    "Ksusig.Props.C40_key_recorded",
    "Ksusig.Props.C40_key_recorded_stamp",
    "Ksusig.Props.C40_sign_iff",
    "Ksusig.Props.C40_key_from_pem",
    "Ksusig.Props.C40_key_from_der",
    "Ksusig.Props.C40_key_loads",
    "Ksusig.Props.C40_loaded_credentials_match",
    "Ksusig.Props.C40_never_mismatch"
   ],
   "note": "All key material and all behaviours of the decoders."
  },
  {
   "property": "C41",
   "status": "partial",
   "theorems": [
    "Ksusig.Props.C41_chain_in_order_partial",
    "Ksusig.Props.C41_broken_block_drops_chain",
    "Ksusig.Props.C41_broken_first",
    "Ksusig.Props.C41_certificate_from_der",
    "Ksusig.Props.C41_chain_from_p12",
    "Ksusig.Props.C41_stored_in_order"
   ],
   "note": "False for a bundle with a block that does not decode behind the first certificate: the whole chain is silently dropped (C41_broken_block_drops_chain, for all such bundles). Proved for all bundles whose blocks decode, any number and kind; and for PKCS#12."
  },
  {
   "property": "C42",
   "status": "proved",
   "theorems": [
    "Ksusig.Props.C42_raw_workflow"
   ],
   "note": "For every well-formed module, algorithm, certificate, key and environment."
  },
  {
   "property": "C43",
   "status": "partial",
   "theorems": [
    "Ksusig.Props.C43_raw_write_partial",
    "Ksusig.Props.C43_rewrite_corrupts",
    "Ksusig.Props.C43_second_sign_fails",
    "Ksusig.Props.C43_second_digest_differs",
    "Ksusig.Props.C43_second_digest_exists"
   ],
   "note": "False: writing a signed module opened with Module::new replaces the directory (C43_rewrite_corrupts); a second sign_v2 fails or signs another digest (C43_second_sign_fails, C43_second_digest_differs). Proved for one sign_v2 on a raw module."
  },
  {
   "property": "C44",
   "status": "proved",
   "theorems": [
    "Ksusig.Props.C44_order_irrelevant",
    "Ksusig.Props.C44_same_offset_order"
   ],
   "note": "For all section tables and permutations; C44_same_offset_order shows that distinct offsets are needed."
  },
  {
   "property": "C45",
   "status": "proved",
   "theorems": [
    "Ksusig.Props.C45_set_sections",
    "Ksusig.Props.C45_selection",
    "Ksusig.Props.C45_data_kept",
    "Ksusig.Props.C45_resolved",
    "Ksusig.Props.C45_resolves_iff"
   ],
   "note": "One call, all histories of calls, and what is resolved; white space and letter case are defined independently in SpecElf."
  },
  {
   "property": "C46",
   "status": "partial",
   "theorems": [
    "Ksusig.Props.C46_digest_partial",
    "Ksusig.Props.C46_name_table_digest_changes",
    "Ksusig.Props.C46_section_past_end_digest_changes",
    "Ksusig.Props.C46_bytes_kept",
    "Ksusig.Props.C46_outside_header",
    "Ksusig.Props.C100_digest_kept",
    "Ksusig.Props.C100_selection_kept"
   ],
   "note": "The byte part (only appends; only e_shoff, e_shentsize and e_shnum change) is proved for all files. The digest part is proved for ordinary section tables (ElfOk), sections within the file and not the section name table, and 32-bit outputs below 4 GiB; C46_name_table_digest_changes and C46_section_past_end_digest_changes show it is false in general. C98 gives the output byte for byte for every file, C100 the condition under which digests stay."
  },
  {
   "property": "C47",
   "status": "partial",
   "theorems": [
    "Ksusig.Props.C47_dangling_name",
    "Ksusig.Props.C47_open_table_renames",
    "Ksusig.Props.C47_name_table_replaced",
    "Ksusig.Props.C47_address_overflow",
    "Ksusig.Props.C47_section_holds_block_partial",
    "Ksusig.Props.C47_reads_back_partial",
    "Ksusig.Props.C47_other_headers_partial",
    "Ksusig.Props.C47_section_count_partial",
    "Ksusig.Props.C47_history_partial",
    "Ksusig.Props.C99_reads_back",
    "Ksusig.Props.C99_history"
   ],
   "note": "Proved for ordinary section tables (ElfOk) and all histories, 32-bit outputs below 4 GiB; C47_dangling_name, C47_open_table_renames, C47_name_table_replaced and C47_address_overflow show what goes wrong otherwise. C98-C100 say more, without the assumption on the tables."
  },
  {
   "property": "C48",
   "status": "partial",
   "theorems": [
    "Ksusig.Props.C48_roundtrip_partial",
    "Ksusig.Props.C48_long_name_fails"
   ],
   "note": "False for section names of 65536 bytes or more, whose length is cut to 16 bits (C48_long_name_fails, for all such names). Proved for all lists with shorter names."
  },
  {
   "property": "C49",
   "status": "proved",
   "theorems": [
    "Ksusig.Props.C49_dump_is_the_regions",
    "Ksusig.Props.C49_dump_command",
    "Ksusig.Props.C49_dump_module",
    "Ksusig.Props.C49_dump_elf"
   ],
   "note": "All modules below 2^63 bytes and all ELF files; success exactly when all regions are within the file."
  },
  {
   "property": "C50",
   "status": "proved",
   "theorems": [
    "Ksusig.Props.C50_hex_digits",
    "Ksusig.Props.C50_hex_injective",
    "Ksusig.Props.C50_base64",
    "Ksusig.Props.C50_base64_injective",
    "Ksusig.Props.C50_command_format"
   ],
   "note": "All byte strings, hex and base64."
  },
  {
   "property": "C51",
   "status": "proved",
   "theorems": [
    "Ksusig.Props.C51_format_detection"
   ],
   "note": "If and only if for both formats, never a panic."
  },
  {
   "property": "C52",
   "status": "partial",
   "theorems": [
    "Ksusig.Props.C52_corrupted_refused_partial",
    "Ksusig.Props.C52_unsigned_accepted_partial",
    "Ksusig.Props.C52_small_module_refused",
    "Ksusig.Props.C52_leading_magic"
   ],
   "note": "False both ways: a module whose entries are shorter than 24 bytes is refused as corrupted (C52_small_module_refused), a magic within the first 8 bytes is taken for unsigned (C52_leading_magic). Proved for all other files."
  },
  {
   "property": "C53",
   "status": "proved",
   "theorems": [
    "Ksusig.Props.C53_context_is_a_map"
   ],
   "note": "Proved for every environment, profile and file."
  },
  {
   "property": "C54",
   "status": "partial",
   "theorems": [
    "Ksusig.Props.C54_block_across",
    "Ksusig.Props.C54_digest_across",
    "Ksusig.Props.C54_changing_partial",
    "Ksusig.Props.C54_stable_file_partial",
    "Ksusig.Props.C54_race",
    "Ksusig.Props.C54_stable_any_build_partial"
   ],
   "note": "False for a file that changes between the reads (C54_race). What holds for a file that changes but keeps its length while it is read: from which of the openings the block, the offsets and the three sections come (C54_block_across, C54_digest_across), and what acceptance then means (C54_changing_partial). Proved for a file that does not change: in both builds (C54_stable_any_build_partial), with the division into entries, block, directory and end record in development builds (C54_stable_file_partial)."
  },
  {
   "property": "C55",
   "status": "proved",
   "theorems": [
    "Ksusig.Props.C55_valid_stamp_verdict",
    "Ksusig.Props.C55_only_first_stamp"
   ],
   "note": "If and only if; C55_only_first_stamp shows that further stamps are ignored."
  },
  {
   "property": "C56",
   "status": "proved",
   "theorems": [
    "Ksusig.Props.C56_unrelated_blocks"
   ],
   "note": "Proved for every environment, profile and file."
  },
  {
   "property": "C57",
   "status": "proved",
   "theorems": [
    "Ksusig.Props.C57_chain_structure"
   ],
   "note": "The structural check is what chain validity means with an empty store."
  },
  {
   "property": "C58",
   "status": "partial",
   "theorems": [
    "Ksusig.Props.C58_release_partial",
    "Ksusig.Props.C58_dev_partial",
    "Ksusig.Props.C58_dev_panics"
   ],
   "note": "False in development builds (C58_dev_panics); proved for release builds, and the panics of development builds are characterised. C113 and C115 give the exact conditions of the panics."
  },
  {
   "property": "C61",
   "status": "partial",
   "theorems": [
    "Ksusig.Props.C61_signing_succeeds_partial",
    "Ksusig.Props.C61_huge_alignment_panics"
   ],
   "note": "False: the alignment of the section name table is taken from the file and may exceed what a buffer can hold (C61_huge_alignment_panics). Proved for every ELF file below 4 GiB with a name table aligned to less than 4 GiB and fewer than 65535 sections: signing returns a file. C98 says for every file when signing succeeds and what it writes."
  },
  {
   "property": "C62",
   "status": "partial",
   "theorems": [
    "Ksusig.Props.C62_digest_of_contents",
    "Ksusig.Props.C62_tamper_evident_partial",
    "Ksusig.Props.C62_names_not_covered",
    "Ksusig.Props.C62_entry_not_covered",
    "Ksusig.Props.C62_boundaries_not_covered"
   ],
   "note": "Proved: equal digests mean equal section contents (one by one if their lengths agree, concatenated otherwise) or an explicit collision. False for names (C62_names_not_covered), section boundaries at multiples of 1 MiB (C62_boundaries_not_covered) and everything outside the sections such as the entry point (C62_entry_not_covered)."
  },
  {
   "property": "C63",
   "status": "partial",
   "theorems": [
    "Ksusig.Props.C63_elf_sign_then_verify_partial",
    "Ksusig.Props.C63_oversize_unreadable",
    "Ksusig.Props.C63_oversize_happens",
    "Ksusig.Props.C100_sign_then_verify",
    "Ksusig.Props.C100_command_reads_back"
   ],
   "note": "Proved for ordinary section tables (ElfOk), sections within the file other than the name table, 32-bit outputs below 4 GiB, outputs goblin accepts, and blocks of at most 16392 bytes. False when the section record, added after the limit check, makes the block larger: the output is then unreadable (C63_oversize_unreadable, C63_oversize_happens). See C99 for the reading side without the ordinary-table assumption."
  },
  {
   "property": "C59",
   "status": "partial",
   "theorems": [
    "Ksusig.Props.C59_in_place_destroys",
    "Ksusig.Props.C59_in_place_never_works",
    "Ksusig.Props.C59_module_untouched_partial",
    "Ksusig.Props.C59_elf_untouched_partial",
    "Ksusig.Props.C59_elf_in_place",
    "Ksusig.Props.C59_bad_directory"
   ],
   "note": "False for modules signed in place: the input is emptied before it is read again and the command fails (C59_in_place_destroys, C59_in_place_never_works, for all modules); and in release builds for a bad directory offset (C59_bad_directory). Proved for another output path for the modules of C25 and for the ELF files of C61; ELF files may be signed in place."
  },
  {
   "property": "C60",
   "status": "partial",
   "theorems": [
    "Ksusig.Props.C60_info_shows_verified_block_partial",
    "Ksusig.Props.C60_verify_uses_shown_block_partial",
    "Ksusig.Props.C60_block_in_comment",
    "Ksusig.Props.C60_info_claims"
   ],
   "note": "False when another magic comes behind the block, for example a block in the archive comment (C60_block_in_comment, for all such archives). Proved otherwise, within the 16 MiB the search covers; that the content is never called verified is proved for all files."
  },
  {
   "property": "C64",
   "status": "partial",
   "theorems": [
    "Ksusig.Props.C64_accepted_is_module",
    "Ksusig.Props.C64_without_record",
    "Ksusig.Props.C64_signed_elf_refused",
    "Ksusig.Props.C64_signed_module_accepted_partial"
   ],
   "note": "False for ELF files, which the verify command treats as modules (C64_without_record for all files without an end record, C64_signed_elf_refused). Proved for the modules of C25."
  },
  {
   "property": "C65",
   "status": "proved",
   "theorems": [
    "Ksusig.Props.C65_sections_of_module"
   ],
   "note": "All modules, section lists and signers."
  },
  {
   "property": "C66",
   "status": "partial",
   "theorems": [
    "Ksusig.Props.C66_mismatch_never_verifies",
    "Ksusig.Props.C66_mismatch_accepted",
    "Ksusig.Props.C66_certificate_not_read",
    "Ksusig.Props.C66_matching_verifies_partial"
   ],
   "note": "False: key and certificate are never compared (C66_certificate_not_read, C66_mismatch_accepted), and then nothing accepts the output (C66_mismatch_never_verifies, for all such credentials). Proved for credentials that belong together."
  },
  {
   "property": "C67",
   "status": "partial",
   "theorems": [
    "Ksusig.Props.C67_signer_from_options_partial",
    "Ksusig.Props.C67_missing_options",
    "Ksusig.Props.C67_load_failure_untouched",
    "Ksusig.Props.C67_container_first",
    "Ksusig.Props.C67_stamp_options_ignored"
   ],
   "note": "False for --stamp-cert or --stamp-password without a stamp key: silently ignored (C67_stamp_options_ignored). Everything else proved for all combinations of options."
  },
  {
   "property": "C68",
   "status": "partial",
   "theorems": [
    "Ksusig.Props.C68_chain_ignored",
    "Ksusig.Props.C68_intermediates_missing",
    "Ksusig.Props.C68_same_credentials_refused",
    "Ksusig.Props.C68_direct_trust_partial"
   ],
   "note": "False: stamps never carry the chain (C68_chain_ignored), so a stamp that needs an intermediate is refused (C68_intermediates_missing for all such credentials, C68_same_credentials_refused). Proved for certificates trusted without intermediates."
  },
  {
   "property": "C69",
   "status": "partial",
   "theorems": [
    "Ksusig.Props.C69_password_required",
    "Ksusig.Props.C69_password_checked_partial",
    "Ksusig.Props.C69_password_ignored",
    "Ksusig.Props.C69_unsupported_key_blames_password"
   ],
   "note": "False for keys of unsupported kind given with a password: reported as invalid password (C69_unsupported_key_blames_password). The rest is proved for all texts and passwords."
  },
  {
   "property": "C70",
   "status": "partial",
   "theorems": [
    "Ksusig.Props.C70_printed_is_signed_partial",
    "Ksusig.Props.C70_total_overflow"
   ],
   "note": "Proved for both formats wherever both commands succeed. False in dev builds when the section sizes add up to 2^64 or more: the digest command panics on its total although signing works with the same regions (C70_total_overflow)."
  },
  {
   "property": "C71",
   "status": "partial",
   "theorems": [
    "Ksusig.Props.C71_in_place_destroys",
    "Ksusig.Props.C71_in_place_never_works",
    "Ksusig.Props.C71_output_untouched_partial",
    "Ksusig.Props.C71_past_end"
   ],
   "note": "False if the output is the input path: the file is emptied and the dump fails (C71_in_place_destroys, C71_in_place_never_works); and a section past the end is noticed only after the output was overwritten (C71_past_end). Proved: every failure before the dump starts leaves the output untouched."
  },
  {
   "property": "C72",
   "status": "proved",
   "theorems": [
    "Ksusig.Props.C72_dump_determines_digest"
   ],
   "note": "All files of both formats."
  },
  {
   "property": "C73",
   "status": "partial",
   "theorems": [
    "Ksusig.Props.C73_report_identifies_signers",
    "Ksusig.Props.C73_flags_per_signer",
    "Ksusig.Props.C73_numbers_restart",
    "Ksusig.Props.C73_numbers_partial",
    "Ksusig.Props.C73_stamp_report"
   ],
   "note": "Proved for all blocks except the signer number stored in the entries, which restarts with every V2 block (C73_numbers_restart, for all blocks with two V2 blocks); with a single V2 block the numbers are right."
  },
  {
   "property": "C74",
   "status": "proved",
   "theorems": [
    "Ksusig.Props.C74_v2_only",
    "Ksusig.Props.C74_with_source_stamp",
    "Ksusig.Props.C74_stamp_only",
    "Ksusig.Props.C74_new_configurations",
    "Ksusig.Props.C74_stamp_builder"
   ],
   "note": "All configurations and all sequences of switch calls."
  },
  {
   "property": "C75",
   "status": "partial",
   "theorems": [
    "Ksusig.Props.C75_warnings_true",
    "Ksusig.Props.C75_unexplained",
    "Ksusig.Props.C75_flags_explained_partial",
    "Ksusig.Props.C75_stamp_explained"
   ],
   "note": "Every warning is proved true. False that every unset flag is explained: signers without certificate or without signatures (C75_unexplained). Proved for all other V2 signers and for source stamps with a certificate."
  },
  {
   "property": "C76",
   "status": "partial",
   "theorems": [
    "Ksusig.Props.C76_one_failure_each",
    "Ksusig.Props.C76_wrong_signer_named",
    "Ksusig.Props.C76_numbers_partial"
   ],
   "note": "One failure per failing signer is proved. The printed numbers are false when a failing signer follows one that does not fail (C76_wrong_signer_named, for all such blocks); proved when the failing signers come first."
  },
  {
   "property": "C77",
   "status": "proved",
   "theorems": [
    "Ksusig.Props.C77_accepted_is_accounted",
    "Ksusig.Props.C77_accepted_was_signed_partial",
    "Ksusig.Props.C77_accepted_was_signed_dev",
    "Ksusig.Props.C77_accepted_was_signed",
    "Ksusig.Props.C77_record_in_block"
   ],
   "note": "Proved as stated. C77_accepted_is_accounted: every build, all accepted files, any set of honest key uses, with the trusted certificate. C77_accepted_was_signed: every build, the key uses being any runs of the sign command on files of either format with any credentials. C77_record_in_block: in release builds the accepted file need not be divided into entries, block, directory and end record, although the hashed regions are those that were signed. The theorems with _partial and _dev are the earlier forms that also give this division."
  },
  {
   "property": "C78",
   "status": "partial",
   "theorems": [
    "Ksusig.Props.C78_digests_not_separated",
    "Ksusig.Props.C78_elf_signature_opens_module",
    "Ksusig.Props.C78_only_same_content_partial",
    "Ksusig.Props.C78_confusion_happens"
   ],
   "note": "False: digests carry no format (C78_digests_not_separated), so the block of an ELF file whose sections hold an archive opens that archive (C78_elf_signature_opens_module for all such files, C78_confusion_happens concretely). Proved: nothing but a module with the same concatenated content is ever opened."
  },
  {
   "property": "C79",
   "status": "proved",
   "theorems": [
    "Ksusig.Props.C79_depends_on_inputs",
    "Ksusig.Props.C79_writes_output",
    "Ksusig.Props.C79_history_frame",
    "Ksusig.Props.C79_history_stable",
    "Ksusig.Props.C79_read_only",
    "Ksusig.Props.C79_independent_commute",
    "Ksusig.Props.C79_any_order",
    "Ksusig.Props.C79_repeat_after_stop",
    "Ksusig.Props.C79_resigning_chain_partial",
    "Ksusig.Props.C79_signed_stays_accepted_partial",
    "Ksusig.Props.C79_signed_stays_accepted",
    "Ksusig.Props.C79_last_signing_decides",
    "Ksusig.Props.C79_signed_again_accepted"
   ],
   "note": "Proved as stated. C79_signed_stays_accepted and C79_last_signing_decides/C79_signed_again_accepted ask nothing of the content of the module; the _partial theorems are the earlier forms for modules as in C25, where also the first signing of a chain is covered by the same formula."
  },
  {
   "property": "C80",
   "status": "partial",
   "theorems": [
    "Ksusig.Props.C80_release_status_partial",
    "Ksusig.Props.C80_sign_success",
    "Ksusig.Props.C80_verify_status",
    "Ksusig.Props.C80_digest_output"
   ],
   "note": "What status 0 means is proved for sign, verify and digest, for every file system. Status 0 or 1 is proved for release builds except that signing an ELF file may panic while the output is put together (C61); in dev builds damaged files make the program panic (C06, C58), and an example shows status 101. C115 says exactly when the status is 101, in both builds."
  },
  {
   "property": "C81",
   "status": "partial",
   "theorems": [
    "Ksusig.Props.C81_cut_off_module_partial",
    "Ksusig.Props.C81_cut_off_refused_partial",
    "Ksusig.Props.C81_module_in_front",
    "Ksusig.Props.C81_interrupted_accepted",
    "Ksusig.Props.C81_stopped_signing_dev",
    "Ksusig.Props.C81_cut_off_any_build_partial",
    "Ksusig.Props.C81_stopped_signing_partial"
   ],
   "note": "False for modules whose entries start with another signed module (C81_module_in_front for all of them, C81_interrupted_accepted concretely: stopped right behind it, the output is that module). Proved: without any assumption, in every build, if the end record is the only place with its signature (C81_cut_off_refused_partial); up to a forged signature or a hash collision in every build, for every module whose end record is its last part and for any other uses of the keys (C81_cut_off_any_build_partial; at the level of the command C81_stopped_signing_partial; both name the one exception, a release build with exactly the end record missing and another one inside the block); in dev builds without the exception (C81_stopped_signing_dev); for archives whose parts can be told apart (C81_cut_off_module_partial)."
  },
  {
   "property": "C82",
   "status": "partial",
   "theorems": [
    "Ksusig.Props.C82_edited_reads_back",
    "Ksusig.Props.C82_edit_is_rebuild",
    "Ksusig.Props.C82_oversize_unreadable",
    "Ksusig.Props.C82_stale_sizes_never_read_back",
    "Ksusig.Props.C82_padding_not_renewed"
   ],
   "note": "Proved for all edits within the size limit. recalculate_size does not check the limit: beyond it the block is refused by the reader (C82_oversize_unreadable, for all such edits), and padding is not renewed (C82_padding_not_renewed)."
  },
  {
   "property": "C83",
   "status": "partial",
   "theorems": [
    "Ksusig.Props.C83_result",
    "Ksusig.Props.C83_success_line",
    "Ksusig.Props.C83_stamp_passed_line",
    "Ksusig.Props.C83_v2_passed_line",
    "Ksusig.Props.C83_passed_without_signature",
    "Ksusig.Props.C83_success_output"
   ],
   "note": "Proved for all files except the line about the V2 signature, which is printed before trust is looked at and even for a signer without any signature (C83_passed_without_signature for all such files); C83_v2_passed_line says exactly when it is printed."
  },
  {
   "property": "C84",
   "status": "partial",
   "theorems": [
    "Ksusig.Props.C84_result",
    "Ksusig.Props.C84_listing",
    "Ksusig.Props.C84_v2_flags",
    "Ksusig.Props.C84_first_signer_shown",
    "Ksusig.Props.C84_stamp_shown",
    "Ksusig.Props.C84_bad_stamp_not_mentioned"
   ],
   "note": "Proved for all files except the last sentence: a stamp that does not verify is listed and otherwise not mentioned (C84_bad_stamp_not_mentioned, for all such files). C84_first_signer_shown: with several V2 signers only the certificates of the first one are shown."
  },
  {
   "property": "C85",
   "status": "proved",
   "theorems": [
    "Ksusig.Props.C85_module",
    "Ksusig.Props.C85_elf",
    "Ksusig.Props.C85_sign_and_strip",
    "Ksusig.Props.C85_elf_signed",
    "Ksusig.Props.C85_elf_unsigned",
    "Ksusig.Props.C85_raw",
    "Ksusig.Props.C85_damaged_counts_as_unsigned"
   ],
   "note": "Proved as stated. C85_damaged_counts_as_unsigned is the general theorem about damaged blocks; in release builds nothing panics."
  },
  {
   "property": "C86",
   "status": "proved",
   "theorems": [
    "Ksusig.Props.C86_ended",
    "Ksusig.Props.C86_serial",
    "Ksusig.Props.C86_own_pace",
    "Ksusig.Props.C86_never_waits"
   ],
   "note": "Proved for every machine, every set of commands and every schedule. The commands are modelled a second time, one file operation at a time (Model/Proc.lean); that this agrees with the model of the other properties is part of the proof (command_run, for all commands and file systems)."
  },
  {
   "property": "C87",
   "status": "partial",
   "theorems": [
    "Ksusig.Props.C87_exclusive_partial",
    "Ksusig.Props.C87_overlap",
    "Ksusig.Props.C87_both_succeed_output_refused"
   ],
   "note": "False as stated: outputs are created in place, without a lock, a temporary file and a rename. Two signings into the same file can both exit with 0 and leave a mixture that is refused (C87_both_succeed_output_refused); C87_overlap says for all commands and all moments what is left when one runs within another. Proved if no other command writes the output or what is read, whatever the others do to each other (C87_exclusive_partial)."
  },
  {
   "property": "C88",
   "status": "proved",
   "theorems": [
    "Ksusig.Props.C88_from_u8",
    "Ksusig.Props.C88_from_reader",
    "Ksusig.Props.C88_unambiguous",
    "Ksusig.Props.C88_same_in_both_profiles"
   ],
   "note": "Proved for all inputs, as an equivalence. The grammar records what the decoder tolerates: sizes that are not checked, bytes skipped after structured values, a last list entry that reaches beyond the announced length."
  },
  {
   "property": "C89",
   "status": "proved",
   "theorems": [
    "Ksusig.Props.C89_end_record",
    "Ksusig.Props.C89_block",
    "Ksusig.Props.C89_missing",
    "Ksusig.Props.C89_unique",
    "Ksusig.Props.C89_digest",
    "Ksusig.Props.C89_split"
   ],
   "note": "Proved for all files, as equivalences; the specification (SpecAnatomy.lean) mentions bytes only. C89_split expresses the division of a file used by the statements on digests (C16 to C20, C77) in the same terms."
  },
  {
   "property": "C90",
   "status": "proved",
   "theorems": [
    "Ksusig.Props.C90_verify_command",
    "Ksusig.Props.C90_verify_with_roots",
    "Ksusig.Props.C90_profiles"
   ],
   "note": "Proved as equivalences, for all files shorter than 2^64 bytes. Cryptography and certificates are parameters (see the trusted base)."
  },
  {
   "property": "C91",
   "status": "proved",
   "theorems": [
    "Ksusig.Props.C91_strip"
   ],
   "note": "Proved for all files, as an equivalence. It makes C22 and C23 exact: bytes behind the end record are cut off or misplaced in the way the specification says."
  },
  {
   "property": "C92",
   "status": "proved",
   "theorems": [
    "Ksusig.Props.C92_sign",
    "Ksusig.Props.C92_sign_command"
   ],
   "note": "Proved for all files, as equivalences. The block size is below 2^63 for the library call (a Vec cannot be longer); the command needs no such bound."
  },
  {
   "property": "C93",
   "status": "proved",
   "theorems": [
    "Ksusig.Props.C93_accepted_iff",
    "Ksusig.Props.C93_accepted",
    "Ksusig.Props.C93_refused"
   ],
   "note": "Proved as stated. It closes what C25 leaves open: C25 is for archives built from parts without the magic, C93 for every file on which the command succeeds, and it shows that success of the command does not mean the output can be verified (trailing bytes, a block that is not directly before the directory)."
  },
  {
   "property": "C94",
   "status": "proved",
   "theorems": [
    "Ksusig.Props.C94_outputs_agree",
    "Ksusig.Props.C94_signing_again",
    "Ksusig.Props.C94_signed_again_accepted"
   ],
   "note": "Proved as stated. It makes C22 and C23 independent of what the entries contain, once a file has been signed."
  },
  {
   "property": "C95",
   "status": "proved",
   "theorems": [
    "Ksusig.Props.C95_strip_after_sign",
    "Ksusig.Props.C95_last_signing_counts",
    "Ksusig.Props.C95_signing_again_succeeds",
    "Ksusig.Props.C95_strip_then_sign"
   ],
   "note": "Proved as equivalences for all files with an end record that hides no other record and room below 4 GiB."
  },
  {
   "property": "C96",
   "status": "partial",
   "theorems": [
    "Ksusig.Props.C96_success_means_success",
    "Ksusig.Props.C96_errors_are_reported_partial",
    "Ksusig.Props.C96_only_output",
    "Ksusig.Props.C96_ends",
    "Ksusig.Props.C96_verify_hides_an_error"
   ],
   "note": "Proved, except that the verify command does not report every error (C96_verify_hides_an_error): an error while a digest is computed is shown only with --verbose and the digest is left out, so C96_errors_are_reported_partial is about the other commands. C96_success_means_success, which includes verify, shows that the hidden error never changes an exit status other than 1."
  },
  {
   "property": "C97",
   "status": "proved",
   "theorems": [
    "Ksusig.Props.C97_parse",
    "Ksusig.Props.C97_unique",
    "Ksusig.Props.C97_text",
    "Ksusig.Props.C97_unsigned",
    "Ksusig.Props.C97_block",
    "Ksusig.Props.C97_sections",
    "Ksusig.Props.C97_digest",
    "Ksusig.Props.C97_selection_unique"
   ],
   "note": "Proved for all files, as equivalences. The parts of goblin that only decide whether a file is rejected (program headers, symbols, dynamic section, relocations) are the parameter acc, as in C45 to C63. C97_block is for files shorter than 2^63 bytes (a Vec cannot be longer)."
  },
  {
   "property": "C98",
   "status": "proved",
   "theorems": [
    "Ksusig.Props.C98_written",
    "Ksusig.Props.C98_panics",
    "Ksusig.Props.C98_plan_unique",
    "Ksusig.Props.C98_sign_command"
   ],
   "note": "Proved for all files shorter than 2^63 bytes (a Vec cannot be longer), as equivalences; the specification (SpecElfAnatomy.lean, Plan and withTable) mentions bytes only."
  },
  {
   "property": "C99",
   "status": "proved",
   "theorems": [
    "Ksusig.Props.C99_first_opens",
    "Ksusig.Props.C99_first_found",
    "Ksusig.Props.C99_reads_back",
    "Ksusig.Props.C99_history",
    "Ksusig.Props.C99_ordinary",
    "Ksusig.Props.C99_signing_can_make_unreadable",
    "Ksusig.Props.C99_another_section_found"
   ],
   "note": "Proved as stated: the conditions for the first signing are equivalences, those for signing again are sufficient. It replaces the assumption of C47 (an ordinary file) by conditions of which each is shown to be needed (C99_signing_can_make_unreadable, C99_another_section_found, C47_name_table_replaced); C99_ordinary: the files of C47 meet them. 32-bit files stay below 4 GiB."
  },
  {
   "property": "C100",
   "status": "proved",
   "theorems": [
    "Ksusig.Props.C100_selection_kept",
    "Ksusig.Props.C100_digest_kept",
    "Ksusig.Props.C100_command_reads_back",
    "Ksusig.Props.C100_sign_then_verify",
    "Ksusig.Props.C100_end_of_name_changes"
   ],
   "note": "Proved as stated, without the assumption of C46 and C63 that the file is ordinary. Each condition is needed: C100_end_of_name_changes, C46_name_table_digest_changes, C46_section_past_end_digest_changes, C47_open_table_renames."
  },
  {
   "property": "C101",
   "status": "proved",
   "theorems": [
    "Ksusig.Props.C101_document",
    "Ksusig.Props.C101_stored",
    "Ksusig.Props.C101_one_block",
    "Ksusig.Props.C101_round_trip",
    "Ksusig.Props.C101_loaded_again",
    "Ksusig.Props.C101_injective",
    "Ksusig.Props.C101_read_from_bytes",
    "Ksusig.Props.C101_read_from_file",
    "Ksusig.Props.C101_built",
    "Ksusig.Props.C101_same_bytes_and_verdict",
    "Ksusig.Props.C101_any_order",
    "Ksusig.Props.C101_other_fields",
    "Ksusig.Props.C101_sizes_unchecked"
   ],
   "note": "Proved as an equivalence. The derived implementations are modelled over serde's data model (Model/Serde.lean); the text of a format is not. C101_document says which documents stand for which block, with every field name, in a specification of its own (SpecDocument.lean). C101_sizes_unchecked is the last sentence of the statement."
  },
  {
   "property": "C102",
   "status": "proved",
   "theorems": [
    "Ksusig.Props.C102_unchanged",
    "Ksusig.Props.C102_still",
    "Ksusig.Props.C102_v2_valid",
    "Ksusig.Props.C102_stamp_valid",
    "Ksusig.Props.C102_no_single_moment"
   ],
   "note": "Proved as stated; C102_no_single_moment is the last sentence. C102_unchanged carries everything that is proved for a clock that stands still (Model/Verifier.lean) over to clocks that move."
  },
  {
   "property": "C103",
   "status": "proved",
   "theorems": [
    "Ksusig.Props.C103_undisturbed",
    "Ksusig.Props.C103_success_means_success",
    "Ksusig.Props.C103_only_output",
    "Ksusig.Props.C103_ends",
    "Ksusig.Props.C103_verify_evidence",
    "Ksusig.Props.C103_seen",
    "Ksusig.Props.C103_verify_mixes",
    "Ksusig.Props.C103_sign_race"
   ],
   "note": "Proved as stated. C103_verify_mixes and C103_sign_race are the last two sentences (concrete runs). The operations are those of Model/Proc.lean: a read is one snapshot of the file, so changes in the middle of one read are not described; between any two operations they are."
  },
  {
   "property": "C104",
   "status": "proved",
   "theorems": [
    "Ksusig.Props.C104_only_chains",
    "Ksusig.Props.C104_more_roots",
    "Ksusig.Props.C104_same_roots",
    "Ksusig.Props.C104_more_roots_module",
    "Ksusig.Props.C104_unusable_root",
    "Ksusig.Props.C104_chain_flag_falls"
   ],
   "note": "Proved as stated; C104_chain_flag_falls is the last sentence. That the PKI library accepts no fewer chains with more anchors (PkiMonotone), or looks only at the set of anchors (PkiSet), are hypotheses of the theorems that need them; C104_only_chains, C104_unusable_root and C104_chain_flag_falls need neither."
  },
  {
   "property": "C105",
   "status": "proved",
   "theorems": [
    "Ksusig.Props.C105_lines",
    "Ksusig.Props.C105_signer_group",
    "Ksusig.Props.C105_early"
   ],
   "note": "Proved as stated, an equivalence for every line (SpecLines.lean has one rule per line). The V2 line 'not found' is printed twice by the code; the equivalence is about which lines appear."
  },
  {
   "property": "C106",
   "status": "proved",
   "theorems": [
    "Ksusig.Props.C106_reads_as_much",
    "Ksusig.Props.C106_reads_more_only",
    "Ksusig.Props.C106_unsigned",
    "Ksusig.Props.C106_same_verdict",
    "Ksusig.Props.C106_same_digest",
    "Ksusig.Props.C106_command",
    "Ksusig.Props.C106_same_source",
    "Ksusig.Props.C106_same_format",
    "Ksusig.Props.C106_accepts_more",
    "Ksusig.Props.C106_format_differs"
   ],
   "note": "Proved as stated; C106_accepts_more and C106_format_differs are the last two sentences. Model/NoElf.lean has the reading side, the digest, the source of signing and the verify command of the build without the feature; other feature sets are not modelled."
  },
  {
   "property": "C107",
   "status": "proved",
   "theorems": [
    "Ksusig.Props.C107_lines",
    "Ksusig.Props.C107_no_block",
    "Ksusig.Props.C107_stamp_last"
   ],
   "note": "Proved as stated, an equivalence for every line (SpecInfo.lean has one rule per line). How a certificate is described in words (cli/cert.rs) is not modelled: a line carries the certificate itself."
  },
  {
   "property": "C108",
   "status": "proved",
   "theorems": [
    "Ksusig.Props.C108_exact",
    "Ksusig.Props.C108_unsigned",
    "Ksusig.Props.C108_same_digest",
    "Ksusig.Props.C108_same_raw",
    "Ksusig.Props.C108_command",
    "Ksusig.Props.C108_prefix",
    "Ksusig.Props.C108_accepts_more",
    "Ksusig.Props.C108_overflow",
    "Ksusig.Props.C108_reserve",
    "Ksusig.Props.C108_bulky",
    "Ksusig.Props.C108_only_narrow_digest",
    "Ksusig.Props.C108_only_narrow_raw",
    "Ksusig.Props.C108_out_of_memory"
   ],
   "note": "Proved as stated; C108_accepts_more, C108_overflow, C108_reserve and C108_bulky are the differences, C108_prefix the last sentence. Model/Narrow.lean has the reading side, the digest, get_raw_module and the verify command with a 32-bit usize; signing, editing and the ELF side are modelled with 64 bits only. A vector of 2 GiB or more is a panic (capacity overflow); running out of memory below that is not modelled."
  },
  {
   "property": "C109",
   "status": "proved",
   "theorems": [
    "Ksusig.Props.C109_same_run",
    "Ksusig.Props.C109_lines",
    "Ksusig.Props.C109_order",
    "Ksusig.Props.C109_shown",
    "Ksusig.Props.C109_format",
    "Ksusig.Props.C109_size",
    "Ksusig.Props.C109_success"
   ],
   "note": "Proved as stated, an equivalence for every line (SpecOut.lean has one rule per line). Lines are typed; their wording is left out, except that the text of an algorithm determines it (C11_display)."
  },
  {
   "property": "C110",
   "status": "proved",
   "theorems": [
    "Ksusig.Props.C110_same_run",
    "Ksusig.Props.C110_lines",
    "Ksusig.Props.C110_dump_same_run",
    "Ksusig.Props.C110_dump_lines",
    "Ksusig.Props.C110_order"
   ],
   "note": "Proved as stated, an equivalence for every line."
  },
  {
   "property": "C111",
   "status": "proved",
   "theorems": [
    "Ksusig.Props.C111_format",
    "Ksusig.Props.C111_unsigned",
    "Ksusig.Props.C111_block",
    "Ksusig.Props.C111_module_again",
    "Ksusig.Props.C111_stays_module",
    "Ksusig.Props.C111_elf_again",
    "Ksusig.Props.C111_taken_for_elf"
   ],
   "note": "Proved as stated; C111_taken_for_elf is the last sentence. The conditions for writing are those of C95 and C99."
  },
  {
   "property": "C112",
   "status": "proved",
   "theorems": [
    "Ksusig.Props.C112_sign",
    "Ksusig.Props.C112_digest",
    "Ksusig.Props.C112_elf_refused",
    "Ksusig.Props.C112_info",
    "Ksusig.Props.C112_signs_more"
   ],
   "note": "Proved as stated; C112_signs_more is the exception. Model/NoElfCli.lean has the commands; errors are not told apart by their text."
  },
  {
   "property": "C113",
   "status": "proved",
   "theorems": [
    "Ksusig.Props.C113_block",
    "Ksusig.Props.C113_from_reader",
    "Ksusig.Props.C113_from_u8",
    "Ksusig.Props.C113_info",
    "Ksusig.Props.C113_digest",
    "Ksusig.Props.C113_regions",
    "Ksusig.Props.C113_verify",
    "Ksusig.Props.C113_verify_full",
    "Ksusig.Props.C113_verify_command",
    "Ksusig.Props.C113_same",
    "Ksusig.Props.C113_digest_command",
    "Ksusig.Props.C113_info_exit",
    "Ksusig.Props.C113_verify_exit"
   ],
   "note": "Proved as stated, as equivalences. C58 and C80 keep the consequences."
  },
  {
   "property": "C114",
   "status": "proved",
   "theorems": [
    "Ksusig.Props.C114_signer",
    "Ksusig.Props.C114_write",
    "Ksusig.Props.C114_sign_module",
    "Ksusig.Props.C114_sign_elf"
   ],
   "note": "Proved as stated, as equivalences. For an ELF file the condition on the length is that of C98."
  },
  {
   "property": "C115",
   "status": "proved",
   "theorems": [
    "Ksusig.Props.C115_padding",
    "Ksusig.Props.C115_digest",
    "Ksusig.Props.C115_dump",
    "Ksusig.Props.C115_sign",
    "Ksusig.Props.C115_statuses",
    "Ksusig.Props.C115_release",
    "Ksusig.Props.C113_verify_exit",
    "Ksusig.Props.C113_info_exit"
   ],
   "note": "Proved as stated, as equivalences; C113_verify_exit and C113_info_exit are the part for the verify and info commands. C115_padding says when a signer has too little room for padding, by the sizes of what it signs."
  },
  {
   "property": "C116",
   "status": "proved",
   "theorems": [
    "Ksusig.Props.C116_run",
    "Ksusig.Props.C116_help",
    "Ksusig.Props.C116_one_meaning",
    "Ksusig.Props.C116_status",
    "Ksusig.Props.C116_sayable",
    "Ksusig.Props.C116_unknown_option",
    "Ksusig.Props.C116_no_algorithm",
    "Ksusig.Props.C116_value_follows",
    "Ksusig.Props.C116_section_takes_all"
   ],
   "note": "Proved as stated, as equivalences. clap's reading of the declarations is modelled, not clap's source, which is not part of the repository. Builds with all features; C118 has the others."
  },
  {
   "property": "C117",
   "status": "proved",
   "theorems": [
    "Ksusig.Props.C117_verify_line",
    "Ksusig.Props.C117_verify_name",
    "Ksusig.Props.C117_verify_safe",
    "Ksusig.Props.C117_sign_line",
    "Ksusig.Props.C117_changes",
    "Ksusig.Props.C117_session",
    "Ksusig.Props.C117_sign_then_verify"
   ],
   "note": "Proved as stated. C117_verify_name is the trap: a file name that asks for help exits with 0. C117_sign_then_verify has the conditions on the module of C79_signed_stays_accepted."
  },
  {
   "property": "C118",
   "status": "proved",
   "theorems": [
    "Ksusig.Props.C118_missing",
    "Ksusig.Props.C118_same",
    "Ksusig.Props.C118_without_elf",
    "Ksusig.Props.C118_no_less",
    "Ksusig.Props.C118_elf_refused",
    "Ksusig.Props.C118_changes",
    "Ksusig.Props.C118_sign_then_verify"
   ],
   "note": "Proved as stated. C118_sign_then_verify is about modules with a plain comment, whose block, if any, stands directly before the directory, with nothing behind the end record and an offset that leaves room for the block (C126_refused has the others); the signing build may be any, also on a file with an odd section list."
  },
  {
   "property": "C119",
   "status": "proved",
   "theorems": [
    "Ksusig.Props.C119_words",
    "Ksusig.Props.C119_unsigned",
    "Ksusig.Props.C119_raw"
   ],
   "note": "Proved as stated. Numbers in the texts may be any digits, which allows for more texts than the program can produce. Texts of errors of the operating system (opening the file) are not included."
  },
  {
   "property": "C120",
   "status": "proved",
   "theorems": [
    "Ksusig.Props.C120_equal",
    "Ksusig.Props.C120_wide",
    "Ksusig.Props.C120_narrow",
    "Ksusig.Props.C120_large",
    "Ksusig.Props.C120_emptied",
    "Ksusig.Props.C120_crosswise",
    "Ksusig.Props.C120_signs_more"
   ],
   "note": "Proved as stated. Modules only. The block itself is made as on 64 bits: key, certificates and password are assumed to take less than 1 GiB. C120_crosswise has the conditions of C93_accepted."
  },
  {
   "property": "C121",
   "status": "proved",
   "theorems": [
    "Ksusig.Props.C121_info",
    "Ksusig.Props.C121_info_trusted",
    "Ksusig.Props.C121_result",
    "Ksusig.Props.C121_passed",
    "Ksusig.Props.C121_other_lines",
    "Ksusig.Props.C121_certificates",
    "Ksusig.Props.C121_forged_name",
    "Ksusig.Props.C121_some_text",
    "Ksusig.Props.C121_signer_flags",
    "Ksusig.Props.C121_overall_flags"
   ],
   "note": ""
  },
  {
   "property": "C122",
   "status": "proved",
   "theorems": [
    "Ksusig.Props.C122_context",
    "Ksusig.Props.C122_accepted",
    "Ksusig.Props.C122_builtin",
    "Ksusig.Props.C122_ok",
    "Ksusig.Props.C122_only_v2",
    "Ksusig.Props.C122_has"
   ],
   "note": ""
  },
  {
   "property": "C123",
   "status": "proved",
   "theorems": [
    "Ksusig.Props.C123_lines",
    "Ksusig.Props.C123_success",
    "Ksusig.Props.C123_steps",
    "Ksusig.Props.C123_names",
    "Ksusig.Props.C123_numbers",
    "Ksusig.Props.C123_determined",
    "Ksusig.Props.C123_forged_name"
   ],
   "note": ""
  },
  {
   "property": "C124",
   "status": "proved",
   "theorems": [
    "Ksusig.Props.C124_stdout",
    "Ksusig.Props.C124_dump_stdout",
    "Ksusig.Props.C124_stderr",
    "Ksusig.Props.C124_dump_stderr",
    "Ksusig.Props.C124_failure",
    "Ksusig.Props.C124_forged_name"
   ],
   "note": ""
  },
  {
   "property": "C125",
   "status": "proved",
   "theorems": [
    "Ksusig.Props.C125_possible",
    "Ksusig.Props.C125_tamper_evident",
    "Ksusig.Props.C125_filling",
    "Ksusig.Props.C125_short"
   ],
   "note": ""
  },
  {
   "property": "C126",
   "status": "proved",
   "theorems": [
    "Ksusig.Props.C126_block",
    "Ksusig.Props.C126_missing",
    "Ksusig.Props.C126_unique",
    "Ksusig.Props.C126_digest",
    "Ksusig.Props.C126_strip",
    "Ksusig.Props.C126_sign",
    "Ksusig.Props.C126_sign_command",
    "Ksusig.Props.C126_verify_command",
    "Ksusig.Props.C126_accepted",
    "Ksusig.Props.C126_refused",
    "Ksusig.Props.C126_two_readings"
   ],
   "note": "Proved as stated. C126_accepted and C126_refused are about modules with a plain comment and an offset that leaves room for the new block."
  },
  {
   "property": "C127",
   "status": "proved",
   "theorems": [
    "Ksusig.Props.C127_values",
    "Ksusig.Props.C127_numbers",
    "Ksusig.Props.C127_same_text",
    "Ksusig.Props.C127_same_value",
    "Ksusig.Props.C127_module"
   ],
   "note": "Proved as stated; the words of each line are in the statements of C127_values and C127_numbers."
  },
  {
   "property": "C128",
   "status": "proved",
   "theorems": [
    "Ksusig.Props.C128_sign",
    "Ksusig.Props.C128_block",
    "Ksusig.Props.C128_added",
    "Ksusig.Props.C128_command",
    "Ksusig.Props.C128_source",
    "Ksusig.Props.C128_clock",
    "Ksusig.Props.C128_untimed"
   ],
   "note": "Proved as stated. Signatures are functions of key and message in the model (the libraries sign deterministically, RFC 6979); timing and memory are not modelled."
  },
  {
   "property": "C129",
   "status": "proved",
   "theorems": [
    "Ksusig.Props.C129_digest",
    "Ksusig.Props.C129_digest_wide",
    "Ksusig.Props.C129_digest_narrow",
    "Ksusig.Props.C129_dump",
    "Ksusig.Props.C129_dump_narrow",
    "Ksusig.Props.C129_info",
    "Ksusig.Props.C129_info_narrow",
    "Ksusig.Props.C129_info_none",
    "Ksusig.Props.C129_info_size",
    "Ksusig.Props.C129_digest_more",
    "Ksusig.Props.C129_info_more",
    "Ksusig.Props.C129_info_panic"
   ],
   "note": "Proved as stated, for modules; ELF files on 32-bit machines are not modelled."
  },
  {
   "property": "C130",
   "status": "proved",
   "theorems": [
    "Ksusig.Props.C130_digest",
    "Ksusig.Props.C130_short",
    "Ksusig.Props.C130_panic",
    "Ksusig.Props.C130_end_ignored",
    "Ksusig.Props.C130_builds",
    "Ksusig.Props.C130_elf",
    "Ksusig.Props.C130_elf_empty"
   ],
   "note": "Proved as stated. That memory for an end record of the given size can be allocated is assumed, as everywhere in the model."
  },
  {
   "property": "C131",
   "status": "proved",
   "theorems": [
    "Ksusig.Props.C131_elf_once",
    "Ksusig.Props.C131_elf_history",
    "Ksusig.Props.C131_elf_growth",
    "Ksusig.Props.C131_module_once",
    "Ksusig.Props.C131_module_history"
   ],
   "note": "Proved as stated. The bound for repeated signing of modules has the conditions of C94: the end record hides no other record and the directory lies more than 16392 bytes below 4 GiB. For ELF files the model has at least 32 bytes for a block; blocks in practice are longer."
  },
  {
   "property": "C132",
   "status": "proved",
   "theorems": [
    "Ksusig.Props.C132_space",
    "Ksusig.Props.C132_amplified"
   ],
   "note": "Proved as stated, with the exception in the statement: the alignment is taken from the file unchecked. That memory for the output can be allocated is assumed."
  },
  {
   "property": "C133",
   "status": "proved",
   "theorems": [
    "Ksusig.Props.C133_rest_is_free",
    "Ksusig.Props.C133_entry_point"
   ],
   "note": "Proved as stated; \"can be opened\" includes that goblin accepts the rest of the changed file, which is a parameter of the model. C62 and C97 are the other half: changes of the selected sections are noticed."
  },
  {
   "property": "C134",
   "status": "proved",
   "theorems": [
    "Ksusig.Props.C134_stamp_as_signature",
    "Ksusig.Props.C134_signature_no_stamp"
   ],
   "note": "Proved as stated. A finding: the two uses of a key are not separated; that the converse fails rests on the size `SignedData::new` of `scheme_v2.rs` announces, which is 4 too large."
  },
  {
   "property": "C135",
   "status": "proved",
   "theorems": [
    "Ksusig.Props.C135_signer_by_signer",
    "Ksusig.Props.C135_taken_away",
    "Ksusig.Props.C135_put_together",
    "Ksusig.Props.C135_library"
   ],
   "note": "Proved as stated. A finding: a stripped source stamp or co-signature is not noticed. C29 is the other half: one bad signer is enough to be refused."
  }
 ]
}