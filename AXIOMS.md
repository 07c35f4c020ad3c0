# Axioms of the theorems

Generated by tools/mkaxioms.py from `#print axioms`.

## none

- Xigt.Mdt.C173_refuted_string
- Xigt.Mdt.C173_refuted_empty
- Xigt.C33_refuted
- Xigt.Tsdb.C61_refuted_skip

## propext

- Xigt.C08_rejected
- Xigt.Mu.C113_lines
- Xigt.Cnv.C119_same
- Xigt.C122_errors
- Xigt.C124_refuted
- Xigt.Qry.C126_partial
- Xigt.Qry.C126_described
- Xigt.Qry.C126_refuted
- Xigt.C127_partial
- Xigt.C129_none
- Xigt.Opt.C141_default
- Xigt.Opt.C141_safe
- Xigt.Opt.C141_run
- Xigt.Opt.C141_refuted
- Xigt.Tsdb.C163_words
- Xigt.Tsdb.C165_only
- Xigt.Tbx.C167_append
- Xigt.Tbx.C168_same
- Xigt.C169_same
- Xigt.C169_refuted_none
- Xigt.C169_refuted_equal
- Xigt.Tbx.C172_stopping
- Xigt.Mdt.C173_string
- Xigt.C33_partial
- Xigt.Complete.functional
- Xigt.C36_refuted
- Xigt.C36_refuted_absent
- Xigt.C37_refuted
- Xigt.XP.C43_find_first
- Xigt.XP.C43_find_raises
- Xigt.Qry.C51_unique_fails
- Xigt.Qry.C51_count
- Xigt.Ltx.C59_charwise
- Xigt.Tsdb.C61_refuted
- Xigt.C62_refuted
- Xigt.Tbx.C73_collision
- Xigt.Ltx.C77_refuted_space
- Xigt.Ltx.C77_empty
- Xigt.Ltx.C79_comment
- Xigt.Ltx.reads_unique
- Xigt.py_join
- Xigt.Qry.C85_options

## propext Classical.choice Quot.sound

- Xigt.C01_partial
- Xigt.C01_refuted
- Xigt.C02_partial
- Xigt.C02_duplicate_rejected
- Xigt.C02_refuted
- Xigt.C03_del
- Xigt.C03_refuted_setitem
- Xigt.C03_refuted_remove
- Xigt.C04_partial
- Xigt.C04_call
- Xigt.C04_last
- Xigt.C04_refuted_setitem
- Xigt.C04_refuted_rejected_append
- Xigt.C05_indexing
- Xigt.C05_contents
- Xigt.py_get
- Xigt.C06_refresh
- Xigt.C07_partial
- Xigt.C07_refuted
- Xigt.C08_homogeneous
- Xigt.C09_refuted
- Xigt.C09_partial
- Xigt.C10_eq_is_same_data
- Xigt.C10_equivalence
- Xigt.C10_congruent
- Xigt.C10_members
- Xigt.Rng.C100_partial
- Xigt.Rng.C100_refuted
- Xigt.Rng.C100_refuted_mixed
- Xigt.Rng.C100_refuted_id
- Xigt.Rng.C100_refuted_igt
- Xigt.Rng.C100_refuted_type
- Xigt.Rng.C100_refuted_name
- Xigt.Rng.algn_iff
- Xigt.Rng.C101_written
- Xigt.Rng.C101_partial
- Xigt.Rng.C101_refuted
- Xigt.Rng.C101_refuted_space
- Xigt.Rng.C102_odin
- Xigt.Rng.C102_toolbox
- Xigt.Rng.C102_refuted
- Xigt.Rng.C102_refuted_key
- Xigt.Rng.C103_iff
- Xigt.Rng.C103_both
- Xigt.Rng.C103_refuted
- Xigt.Rng.C103_refuted_text
- Xigt.Rng.C104_odin
- Xigt.Rng.C104_refuted
- Xigt.Rng.C105_toolbox
- Xigt.Rng.C105_refuted_pos
- Xigt.Rng.C105_refuted_attribute
- Xigt.Files.C106_directory
- Xigt.Files.C107_partial
- Xigt.Files.C107_refuted
- Xigt.Files.C108_partial
- Xigt.Files.C108_twice
- Xigt.Files.C108_refuted
- Xigt.C109_partial
- Xigt.C109_refuted
- Xigt.C109_refuted_xml
- Xigt.C11_partial
- Xigt.Srt.C110_partial
- Xigt.Srt.C110_deps
- Xigt.Srt.C110_refuted
- Xigt.Ltx.C111_partial
- Xigt.Files.C111_refuted
- Xigt.Files.C111_refuted_par
- Xigt.Files.C112_document
- Xigt.Files.C112_refuted
- Xigt.Mu.C113_lex
- Xigt.Files.C114_refuted
- Xigt.Ord.C115_roundtrip
- Xigt.Ord.C116_partial
- Xigt.Ord.C116_same
- Xigt.Ord.C116_refuted
- Xigt.Byt.C117_partial
- Xigt.Byt.C117_refuted
- Xigt.Byt.C118_partial
- Xigt.Byt.C118_refuted
- Xigt.Cnv.C119_text
- Xigt.Cnv.C119_partial
- Xigt.Cnv.C119_refuted
- Xigt.Cnv.C119_refuted_type
- Xigt.C12_partial
- Xigt.Rng.C120_iff
- Xigt.Rng.C120_tiers
- Xigt.Rng.C120_text
- Xigt.Vld.C121_refuted
- Xigt.Vld.C121_partial
- Xigt.C122_partial
- Xigt.C122_cached
- Xigt.C122_refuted
- Xigt.C123_reference
- Xigt.C124_partial
- Xigt.C124_refuted_removed
- Xigt.C125_refuted
- Xigt.Qry.C127_refuted_query
- Xigt.XP.C128_cut
- Xigt.XP.C128_partial
- Xigt.XP.C128_refuted
- Xigt.C129_partial
- Xigt.C129_refuted
- Xigt.C129_refuted_assigned
- Xigt.C13_ids_of_expression
- Xigt.C13_ids_all_strings
- Xigt.C13_ids_occur
- Xigt.Re.re_match
- Xigt.Re.re_findall
- Xigt.Cnv.C130_partial
- Xigt.Cnv.C130_refuted
- Xigt.C131_partial
- Xigt.C131_refuted
- Xigt.C131_refuted_taken
- Xigt.C132_partial
- Xigt.C132_attribute_partial
- Xigt.C132_refuted
- Xigt.C133_xml_partial
- Xigt.C133_json_partial
- Xigt.C133_refuted_xml
- Xigt.C133_refuted_json
- Xigt.Srt.C134_partial
- Xigt.Srt.C134_tiers_partial
- Xigt.Srt.C134_refuted
- Xigt.Vld.C135_partial
- Xigt.Vld.C135_circular
- Xigt.Vld.C135_refuted
- Xigt.Tbx.C136_partial
- Xigt.Tbx.C136_file
- Xigt.Tbx.C136_refuted
- Xigt.Tbx.C136_refuted_keys
- Xigt.Odin.C137_partial
- Xigt.Odin.C137_file
- Xigt.Odin.C137_refuted
- Xigt.Odin.C137_refuted_refs
- Xigt.Vld.C138_equal
- Xigt.Vld.C138_xml_partial
- Xigt.Vld.C138_run_partial
- Xigt.Vld.C138_json_partial
- Xigt.Vld.C138_refuted_xml
- Xigt.Vld.C138_refuted_json
- Xigt.Vld.C139_partial
- Xigt.Vld.C139_tiers_partial
- Xigt.Vld.C139_passes_partial
- Xigt.Vld.C139_refuted
- Xigt.C14_selections_lossless
- Xigt.C14_selections_of_expression
- Xigt.Rng.C140_syntax
- Xigt.Rng.C140_dependencies
- Xigt.Rng.C140_both
- Xigt.Rng.C140_typed
- Xigt.Rng.C140_refuted
- Xigt.Opt.C141_again
- Xigt.C142_value
- Xigt.C142_references
- Xigt.C142_descendants
- Xigt.C142_ancestors_partial
- Xigt.C142_refuted
- Xigt.XP.C143_partial
- Xigt.XP.C143_alike_partial
- Xigt.XP.C143_xml_partial
- Xigt.XP.C143_json_partial
- Xigt.XP.C143_refuted_order
- Xigt.XP.C143_refuted_prefix
- Xigt.Js.C144_value
- Xigt.Js.C144_text
- Xigt.Js.C144_members
- Xigt.Js.C144_refuted_type
- Xigt.Js.C144_refuted_child
- Xigt.Js.C144_refuted_null
- Xigt.Srt.C145_sort_partial
- Xigt.Srt.C145_xml_partial
- Xigt.Srt.C145_refuted_prefix
- Xigt.Srt.C145_refuted_order
- Xigt.Ltx.C146_latex
- Xigt.Ltx.C146_xml
- Xigt.Ltx.C146_json
- Xigt.Srt.C147_partial
- Xigt.Srt.C147_count_partial
- Xigt.Srt.C147_strings_partial
- Xigt.Srt.C147_refuted
- Xigt.Part.C148_partial
- Xigt.Part.C148_refuted
- Xigt.Rng.C149_iff
- Xigt.Rng.C149_extends
- Xigt.Rng.C149_syntax
- Xigt.Rng.C149_loose
- Xigt.C15_expand_splits
- Xigt.C15_compress_merges
- Xigt.C15_expand_idempotent
- Xigt.C15_compress_idempotent
- Xigt.C15_expand_compress
- Xigt.C15_compress_expand
- Xigt.C15_fixed_points
- Xigt.Rng.C150_reads_partial
- Xigt.Rng.C150_partial
- Xigt.Rng.C150_sort_partial
- Xigt.Rng.C150_refuted
- Xigt.Rng.C151_partial
- Xigt.Rng.C151_run_partial
- Xigt.Rng.C151_refuted
- Xigt.Cmd.C152_iff
- Xigt.Cmd.C152_script
- Xigt.Cmd.C152_process
- Xigt.Cmd.C152_unknown
- Xigt.Cmd.C152_dashes_refuted
- Xigt.Cmd.C153_sort
- Xigt.Cmd.C153_partition
- Xigt.Cmd.C153_query
- Xigt.Cmd.C153_validate
- Xigt.Cmd.C153_formats
- Xigt.Cmd.C153_import
- Xigt.Cmd.C153_export
- Xigt.Cmd.C153_partition_refuted
- Xigt.Cmd.C153_query_refuted
- Xigt.Cmd.C153_default_key
- Xigt.Cmd.C153_partition_dashes_refuted
- Xigt.Rng.C154_iff
- Xigt.Rng.C154_types
- Xigt.Rng.C154_alone
- Xigt.Rng.C154_loose
- Xigt.Cmd.C155_origin
- Xigt.Cmd.C155_sort
- Xigt.Cmd.C155_output
- Xigt.Cmd.C155_partition
- Xigt.Cmd.C155_word
- Xigt.Files.C156_partial
- Xigt.Files.C156_reads
- Xigt.Files.C156_sort
- Xigt.Files.C156_refuted
- Xigt.Files.C157_sort
- Xigt.Files.C157_partition
- Xigt.Files.C157_query
- Xigt.Files.C157_validate
- Xigt.Files.C157_import
- Xigt.Files.C157_export
- Xigt.Files.C157_sorted
- Xigt.Files.C157_twice
- Xigt.Files.C157_partitioned
- Xigt.Files.C157_imported
- Xigt.Files.C157_exported
- Xigt.Js.C158_exact
- Xigt.Js.C158_error
- Xigt.Js.C158_one
- Xigt.Js.C158_written
- Xigt.Js.C158_corpus
- Xigt.Js.C158_alike
- Xigt.Js.C158_never
- Xigt.Xs.C159_names
- Xigt.Xs.C159_each
- Xigt.Xs.C159_partial
- Xigt.Xs.C159_never
- Xigt.Xs.C159_refuted
- Xigt.C16_spans
- Xigt.Vld.C160_passes
- Xigt.Vld.C160_partial
- Xigt.Vld.C160_back_partial
- Xigt.Vld.C160_files_partial
- Xigt.Vld.C160_refuted
- Xigt.Vld.C160_refuted_back
- Xigt.Vld.C161_file
- Xigt.Vld.C161_append
- Xigt.Vld.C161_status
- Xigt.Vld.C161_reads
- Xigt.Qry.C162_equal_partial
- Xigt.Qry.C162_xml_partial
- Xigt.Qry.C162_sort_partial
- Xigt.Qry.C162_partition_partial
- Xigt.Qry.C162_refuted_tally
- Xigt.Qry.C162_refuted_unique
- Xigt.Tsdb.C163_equal
- Xigt.Tsdb.C163_refuted_empty
- Xigt.Ltx.C164_igts
- Xigt.Ltx.C164_tiers_partial
- Xigt.Ltx.C164_deps_partial
- Xigt.Ltx.C164_partial
- Xigt.Ltx.C164_partition_partial
- Xigt.Tsdb.C164_rows
- Xigt.Ltx.C164_refuted
- Xigt.Tsdb.C164_refuted_numbers
- Xigt.Tsdb.C165_command
- Xigt.Tsdb.C165_refuted
- Xigt.Files.C166_partition
- Xigt.Files.C166_quiet
- Xigt.Files.C166_sort_lines
- Xigt.Files.C166_command_sort
- Xigt.Files.C166_command_partition
- Xigt.Tbx.C167_tiers
- Xigt.Tbx.C167_record
- Xigt.Tbx.C167_all
- Xigt.Tbx.C167_stops
- Xigt.Tbx.C167_refuted_twice
- Xigt.Tbx.C167_refuted_short
- Xigt.Tbx.C168_accounts
- Xigt.Tbx.C168_stopped
- Xigt.Tbx.C168_count
- Xigt.Tbx.C168_quiet
- Xigt.Tbx.C168_refuted
- Xigt.C169_last
- Xigt.C169_new
- Xigt.C169_again
- Xigt.C169_partial
- Xigt.C169_refuted_removed
- Xigt.C17_resolve
- Xigt.C17_resolve_ok
- Xigt.Tbx.C170_partial
- Xigt.Tbx.C170_unwarned
- Xigt.Tbx.C170_file
- Xigt.Tbx.C170_refuted
- Xigt.Odin.C171_partial
- Xigt.Odin.C171_only
- Xigt.Odin.C171_unwarned
- Xigt.Odin.C171_file
- Xigt.Odin.C171_refuted
- Xigt.Tbx.C172_named
- Xigt.Tbx.C172_refuted_second
- Xigt.Tbx.C172_refuted_stopped
- Xigt.Tbx.C172_refuted_unnamed
- Xigt.Mdt.C173_write
- Xigt.Mdt.C173_self
- Xigt.Mdt.C173_new
- Xigt.Tbx.C174_partial
- Xigt.Tbx.C174_rows
- Xigt.Tbx.C174_file
- Xigt.C176_add
- Xigt.C176_set
- Xigt.C176_clear
- Xigt.C176_partial
- Xigt.C176_refuted
- Xigt.C18_expand_compress_resolve
- Xigt.C19_dangling
- Xigt.C19_no_partial_result
- Xigt.C20_value
- Xigt.C21_acyclic
- Xigt.C21_iff
- Xigt.C22_errors
- Xigt.C22_exact
- Xigt.C23_inverse
- Xigt.C24_partial
- Xigt.C24_refuted_shared_id
- Xigt.C24_refuted_unknown_id
- Xigt.C24_refuted_get_item
- Xigt.C25_refuted
- Xigt.C26_iff
- Xigt.C26_bound
- Xigt.C26_partial
- Xigt.C26_partial_acyclic
- Xigt.C26_diverges
- Xigt.C26_refuted
- Xigt.C27_steps
- Xigt.C27_end
- Xigt.C27_raised
- Xigt.C28_terminates
- Xigt.C29_sound
- Xigt.C29_partial
- Xigt.C29_refuted
- Xigt.C30_partial
- Xigt.C30_refuted
- Xigt.C31_partial
- Xigt.C31_refuted
- Xigt.C35_get_meta
- Xigt.C38_partial
- Xigt.C38_refuted
- Xigt.C38_refuted_text
- Xigt.C38_refuted_raises
- Xigt.C39_never_corpus
- Xigt.C39_never_item
- Xigt.C39_refuted
- Xigt.C39_partial
- Xigt.C40_partial
- Xigt.C42_refuted_igt
- Xigt.C40_refuted
- Xigt.C40_refuted_text
- Xigt.C40_refuted_ns
- Xigt.C40_refuted_cr
- Xigt.C40_refuted_key
- Xigt.C40_refuted_known
- Xigt.C41_partial
- Xigt.C41_refuted
- Xigt.C42_partial
- Xigt.C42_refuted
- Xigt.XP.C44_partial
- Xigt.XP.C44_desc
- Xigt.XP.C44_refuted
- Xigt.XP.C45_partial
- Xigt.XP.C45_root
- Xigt.XP.C45_refuted
- Xigt.XP.C45_corpus_refuted
- Xigt.XP.C46_eq_partial
- Xigt.XP.C46_ne_partial
- Xigt.XP.C46_exists_raises
- Xigt.XP.C46_refuted
- Xigt.XP.C46_nested_refuted
- Xigt.XP.C47_partial
- Xigt.XP.C47_step_partial
- Xigt.XP.C47_refuted
- Xigt.XP.C48_child_partial
- Xigt.XP.C48_star
- Xigt.XP.C48_prefixed_partial
- Xigt.XP.C48_attr_partial
- Xigt.XP.C48_attr_prefixed_partial
- Xigt.XP.C48_member
- Xigt.XP.C48_refuted
- Xigt.XP.C48_dot_refuted
- Xigt.Part.C49_partial
- Xigt.Part.C49_succeeds
- Xigt.Part.C49_refuted
- Xigt.Part.C49_refuted_ids
- Xigt.Srt.C50_partial
- Xigt.Srt.C50_succeeds
- Xigt.Srt.C50_total
- Xigt.Srt.C50_refuted
- Xigt.Qry.C51_unique_partial
- Xigt.Qry.C51_refuted
- Xigt.Vld.C52_errors
- Xigt.Vld.C52_unreadable
- Xigt.Vld.C53_partial
- Xigt.Vld.C53_refuted
- Xigt.Vld.C54_partial
- Xigt.Vld.C54_refuted
- Xigt.Vld.C54_refuted_empty
- Xigt.Tbx.C55_words
- Xigt.Tbx.C55_tier
- Xigt.Tbx.C56_refuted
- Xigt.Tbx.C57_partial
- Xigt.Odin.C58_partial
- Xigt.Odin.C58_idempotent
- Xigt.Odin.C58_refuted
- Xigt.Ltx.C60_partial
- Xigt.Ltx.C60_kept
- Xigt.Ltx.C60_refuted
- Xigt.Ltx.C60_refuted_order
- Xigt.Ltx.C60_refuted_rows
- Xigt.Ltx.C60_refuted_range
- Xigt.Ltx.C60_refuted_empty
- Xigt.C62_partial
- Xigt.C62_partial_no_namespace
- Xigt.C63_constructor
- Xigt.C64_partial
- Xigt.C64_refuted
- Xigt.C65_partial
- Xigt.C65_refuted
- Xigt.C66_once
- Xigt.C66_sound
- Xigt.C66_partial
- Xigt.C66_refuted
- Xigt.C67_partial
- Xigt.C67_refuted
- Xigt.Vld.C69_spans
- Xigt.Vld.C70_finishes
- Xigt.Vld.C70_failures
- Xigt.Tbx.C71_spell
- Xigt.Tbx.C71_morphemes
- Xigt.Tbx.C71_hyphens_refuted
- Xigt.Tbx.C72_ids_distinct
- Xigt.Tbx.C73_partial
- Xigt.Tbx.C73_refuted
- Xigt.Tbx.C74_alignment
- Xigt.py_str
- Xigt.Odin.C75_complete
- Xigt.Odin.C75_incomplete
- Xigt.Odin.C75_all
- Xigt.Odin.C76_partial
- Xigt.Odin.C76_refuted
- Xigt.Odin.C76_refuted_header
- Xigt.Odin.C76_refuted_empty
- Xigt.Odin.C76_refuted_language
- Xigt.Ltx.C78_partial
- Xigt.Ltx.C78_refuted
- Xigt.Ltx.C79_any
- Xigt.Ltx.C79_partial
- Xigt.Ltx.C79_refuted
- Xigt.Ltx.C79_refuted_empty
- Xigt.C80_partial
- Xigt.C80_iadd
- Xigt.C81
- Xigt.C82_partial
- Xigt.C82_repair
- Xigt.C82_refuted_pop
- Xigt.C82_refuted_iadd
- Xigt.C83_spans
- Xigt.C83_succeeds
- Xigt.C83_partial
- Xigt.C83_refuted_missing
- Xigt.C83_refuted_none
- Xigt.C83_refuted_delim
- Xigt.Qry.C84_partial
- Xigt.Qry.C84_default
- Xigt.Qry.C84_refuted_query
- Xigt.Qry.C84_refuted_braces
- Xigt.Qry.C84_refuted_nested
- Xigt.Qry.C86_injective
- Xigt.Vld.C87_printed
- Xigt.Vld.C87_messages
- Xigt.Vld.C87_nothing
- Xigt.Vld.C87_heading
- Xigt.Vld.C88_partial
- Xigt.Vld.C88_refuted
- Xigt.C89_partial
- Xigt.C89_anywhere
- Xigt.C89_refuted
- Xigt.C90_partial
- Xigt.C90_fragment
- Xigt.C90_refuted
- Xigt.C91_layer
- Xigt.C91_ascii
- Xigt.C91_text
- Xigt.C91_equal
- Xigt.Tbx.C93_partial
- Xigt.Tbx.C93_refuted
- Xigt.Tbx.C93_refuted_empty
- Xigt.Tbx.C93_refuted_chars
- Xigt.Srt.C95_stages
- Xigt.Qry.C96_file
- Xigt.XP.C97_referent_partial
- Xigt.XP.C97_referrer_partial
- Xigt.XP.C97_item
- Xigt.XP.C97_refuted
- Xigt.Rng.C98_iff
- Xigt.Rng.C98_refuted
- Xigt.Rng.C98_refuted_type
- Xigt.Rng.C98_refuted_id
- Xigt.Rng.C98_refuted_refs
- Xigt.Vld.C99_heading
- Xigt.Vld.C99_reads

## propext Quot.sound

- Xigt.py_dict_get
- Xigt.py_dict_set
- Xigt.C03_append_insert
- Xigt.C03_extend
- Xigt.C03_partial
- Xigt.py_insert
- Xigt.Files.C106_file
- Xigt.Files.C106_mismatch
- Xigt.Files.C106_refuted
- Xigt.Files.C106_refuted_directory
- Xigt.Files.C107_exists
- Xigt.C11_refuted
- Xigt.Files.C112_partial
- Xigt.Files.C112_unopened
- Xigt.Mu.C113_tree
- Xigt.Mu.C113
- Xigt.Mu.C113_bare
- Xigt.Mu.C113_exact
- Xigt.Mu.C113_refs
- Xigt.Mu.C114_never
- Xigt.Ord.C115_open
- Xigt.Ord.C115
- Xigt.Ord.C115_sorted
- Xigt.C12_refuted
- Xigt.Vld.C121_status
- Xigt.Vld.C121_levels
- Xigt.Vld.C121_quiet
- Xigt.C123_span
- Xigt.between_unique
- Xigt.C124_tier
- Xigt.C125_partial
- Xigt.C125_refuted_none
- Xigt.Qry.C126_file
- Xigt.Qry.C126_begun
- Xigt.Qry.C126_usage
- Xigt.Qry.basename_spec
- Xigt.C127_text
- Xigt.C127_refuted
- Xigt.C131_same
- Xigt.Opt.C141_given
- Xigt.Opt.C141_same
- Xigt.Opt.C141_odin
- Xigt.Opt.C141_partial
- Xigt.Js.C144_one
- Xigt.Xs.C159_one
- Xigt.Vld.C160_status
- Xigt.Tsdb.C163_cell
- Xigt.Tsdb.C163_partial
- Xigt.Tsdb.C163_refuted
- Xigt.Tsdb.C163_refuted_odin
- Xigt.Tsdb.C165_profile
- Xigt.Tsdb.C165_rows
- Xigt.Tsdb.C165_nothing
- Xigt.Tsdb.C165_named
- Xigt.Files.C166_same
- Xigt.Files.C166_more
- Xigt.Files.C166_sort
- Xigt.pySlice_between
- Xigt.py_strip
- Xigt.py_int
- Xigt.Tbx.C172_same
- Xigt.Tbx.C172_record
- Xigt.Tbx.C172_partial
- Xigt.Tbx.C172_stopped
- Xigt.Tbx.C172_count
- Xigt.Mdt.C173_both
- Xigt.Tbx.C174_refuted
- Xigt.C175_write
- Xigt.C175_full
- Xigt.C175_partial
- Xigt.C175_refuted
- Xigt.C20_priority
- Xigt.C21_cyclic
- Xigt.C25_partial
- Xigt.C31_diverges
- Xigt.C32_inherit
- Xigt.C32_no_inherit
- Xigt.C33_never_inherits
- Xigt.py_splitOnce
- Xigt.C34_nsmap
- Xigt.C36_partial
- Xigt.C37_partial_incremental
- Xigt.C37_partial_transient
- Xigt.C37_partial_complete
- Xigt.py_stripChars
- Xigt.Part.C49_names
- Xigt.Qry.C51_tally_partial
- Xigt.Qry.C51_tally_succeeds
- Xigt.Qry.C51_tally_count
- Xigt.Vld.C52_run
- Xigt.Vld.C52_filter
- Xigt.Tbx.C56_partial
- Xigt.Tbx.C56_in_word
- Xigt.Tbx.C56_precise
- Xigt.Tbx.utf8_compat
- Xigt.Tbx.latin1_compat
- Xigt.Tbx.C57_refuted
- Xigt.Ltx.C59_injective
- Xigt.Tsdb.C61_numbers
- Xigt.Tsdb.C61_partial
- Xigt.Tsdb.C61_last
- Xigt.Srt.C68_reorders
- Xigt.Tbx.C72_tokens
- Xigt.Ltx.C77_partial
- Xigt.Ltx.C77_refuted
- Xigt.C80_refuted_self
- Xigt.C80_refuted_iadd
- Xigt.Qry.C85_agenda
- Xigt.Qry.C86_table
- Xigt.Vld.mem_positions
- Xigt.Vld.positions_sorted
- Xigt.C90_layer
- Xigt.jok_corpus
- Xigt.Tbx.C92_igts
- Xigt.Tbx.C92_dropped
- Xigt.Tbx.igtAttrs_spec
- Xigt.Tbx.C94_markers
- Xigt.Tbx.C94_fails
- Xigt.Vld.C99_message
