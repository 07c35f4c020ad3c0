c('C09', 'partial', 'Xigt.C09_refuted Xigt.C09_partial',
  'Fails as stated: the ID check is not end-anchored ("a b" is accepted). Proved: exact set of accepted strings, and an accepted string is recovered iff it is a full ID.')
c('C13', 'proved', 'Xigt.C13_ids_of_expression Xigt.C13_ids_all_strings Xigt.C13_ids_occur Xigt.Re.re_match Xigt.Re.re_findall')
c('C14', 'proved', 'Xigt.C14_selections_lossless Xigt.C14_selections_of_expression')
c('C15', 'proved', 'Xigt.C15_expand_splits Xigt.C15_compress_merges Xigt.C15_expand_idempotent Xigt.C15_compress_idempotent Xigt.C15_expand_compress Xigt.C15_compress_expand Xigt.C15_fixed_points')
c('C16', 'proved', 'Xigt.C16_spans')
c('C17', 'proved', 'Xigt.C17_resolve Xigt.C17_resolve_ok Xigt.pySlice_between Xigt.py_strip Xigt.py_int')
c('C18', 'proved', 'Xigt.C18_expand_compress_resolve')
c('C19', 'proved', 'Xigt.C19_dangling Xigt.C19_no_partial_result')
c('C01', 'partial', 'Xigt.C01_partial Xigt.C01_refuted Xigt.py_dict_get Xigt.py_dict_set',
  'Fails as stated: removing a foreign object whose ID is taken leaves the contained object unreachable (C01_refuted). Proved for all histories without such removals and without item assignments rejected for a duplicate ID.')
c('C02', 'partial', 'Xigt.C02_partial Xigt.C02_duplicate_rejected Xigt.C02_refuted',
  'Same two exceptions as C01; C02_refuted shows a duplicate after the removal of a foreign object.')
c('C03', 'partial', 'Xigt.C03_append_insert Xigt.C03_extend Xigt.C03_del Xigt.C03_partial Xigt.C03_refuted_setitem Xigt.C03_refuted_remove',
  'Holds for append, insert, extend (prefix), del, and the other failures of remove and item assignment; fails for item assignment with a duplicate ID and for removing a foreign object with a contained ID.')
c('C04', 'partial', 'Xigt.C04_partial Xigt.C04_call Xigt.C04_last Xigt.C04_refuted_setitem Xigt.C04_refuted_rejected_append',
  'In all histories the parent of an object is the container of the last call that reached it (C04_last). Item assignment does not set the parent; a rejected append changes the parent. Proved for histories without item assignment in which each object goes to one container only.')
c('C05', 'proved', 'Xigt.C05_indexing Xigt.C05_contents Xigt.py_get Xigt.py_insert')
c('C06', 'proved', 'Xigt.C06_refresh')
c('C07', 'partial', 'Xigt.C07_partial Xigt.C07_refuted',
  'Fails for equal objects without ID (C07_refuted); proved whenever no earlier element is equal, in particular always for objects with an ID.')
c('C08', 'proved', 'Xigt.C08_homogeneous Xigt.C08_rejected')
c('C10', 'proved', 'Xigt.C10_eq_is_same_data Xigt.C10_equivalence Xigt.C10_congruent Xigt.C10_members')
c('C11', 'partial', 'Xigt.C11_refuted Xigt.C11_partial',
  'Fails between Item, Meta and MetaChild (an empty Item equals an empty Meta, not conversely); proved for all other pairs of classes.')
c('C12', 'partial', 'Xigt.C12_refuted Xigt.C12_partial',
  'Fails for every container class: != is list.__ne__, which compares contents only. Proved for Item, and exactly what != computes for the others.')

c('C20', 'proved', 'Xigt.C20_value Xigt.C20_priority',
  'value() equals the value given by an inductive specification over the data (Val), for all igts; the priority rule also without context')
c('C21', 'proved', 'Xigt.C21_acyclic Xigt.C21_cyclic Xigt.C21_iff',
  'the stack limit is a parameter; acyclic: at most #items+1 frames and a result independent of the limit; cyclic: exhausts every limit if references are resolvable, otherwise never a value')
c('C22', 'proved', 'Xigt.C22_errors Xigt.C22_exact', 'exact error conditions; expressions are well-formed with single delimiters')

c('C23', 'proved', 'Xigt.C23_inverse',
  'for igts in which no ID is used twice and the item index is current (both kept by the containers and refresh_indices); no repeated reference attributes')
c('C24', 'partial', 'Xigt.C24_partial Xigt.C24_refuted_shared_id Xigt.C24_refuted_unknown_id Xigt.C24_refuted_get_item',
  'fails for unknown IDs and when an ID is shared between tiers and items or items of two tiers; proved otherwise, and the inverse law of the cached maps always')
c('C25', 'partial', 'Xigt.C25_partial Xigt.C25_refuted', 'refresh_indices never clears the item index: removed items are still found')
c('C26', 'partial', 'Xigt.C26_iff Xigt.C26_bound Xigt.C26_partial Xigt.C26_partial_acyclic Xigt.C26_diverges Xigt.C26_refuted',
  'false of cycles that avoid the start tier with IDs of two or more characters; C26_iff says exactly when it never ends, C26_bound that otherwise it ends after at most 2·#tiers+3 steps')
c('C27', 'proved', 'Xigt.C27_steps Xigt.C27_end Xigt.C27_raised')
c('C28', 'proved', 'Xigt.C28_terminates', 'reference attributes without repetition; a start tier without ID raises at once')
c('C29', 'partial', 'Xigt.C29_sound Xigt.C29_partial Xigt.C29_refuted', 'sound always; complete except for tiers without ID, which are never reached')
c('C64', 'partial', 'Xigt.C64_partial Xigt.C64_refuted', 'fails for numeric strings (IndexError); proved for every string accepted as ID')
c('C65', 'partial', 'Xigt.C65_partial Xigt.C65_refuted', 'visited.update(tier.id) adds the characters of the ID; proved when no tier met has a one-character ID')
c('C66', 'partial', 'Xigt.C66_once Xigt.C66_sound Xigt.C66_partial Xigt.C66_refuted', 'a tier reached twice is followed only the first time; where every tier is reached once, exactly the items that refer directly or indirectly are listed (C66_once); that no others are listed holds always (C66_sound)')
c('C30', 'partial', 'Xigt.C30_partial Xigt.C30_refuted', 'fails for tiers without ID, which share one index entry; proved, with idempotence, when all tiers have IDs')
c('C31', 'partial', 'Xigt.C31_partial Xigt.C31_diverges Xigt.C31_refuted', 'never ends on circular references; ends on every igt without them')
c('C32', 'proved', 'Xigt.C32_inherit Xigt.C32_no_inherit', 'objects with their parents are lists; also what prefixed keys mean and when they raise')
c('C33', 'partial', 'Xigt.C33_never_inherits Xigt.C33_partial Xigt.C33_refuted Xigt.py_splitOnce', 'the key is qualified again on every ancestor, so with namespace= nothing is ever inherited; proved for own attributes')
c('C34', 'proved', 'Xigt.C34_nsmap')
c('C35', 'proved', 'Xigt.C35_get_meta')
c('C62', 'partial', 'Xigt.C62_partial Xigt.C62_partial_no_namespace Xigt.C62_refuted', 'fails on the metadata list of an object, which has no nsmap (AttributeError); proved for all other containers, and there for all criteria without namespace; members with string values')
c('C63', 'proved', 'Xigt.C63_constructor')
c('C36', 'partial', 'Xigt.C36_partial Xigt.Complete.functional Xigt.C36_refuted Xigt.C36_refuted_absent', 'fails for sources with a repeated ID (accepted only in transient mode) and without source; proved for all other sources')
c('C37', 'partial', 'Xigt.C37_partial_incremental Xigt.C37_partial_transient Xigt.C37_partial_complete Xigt.C37_refuted', 'fails if the source is a list, as in JSON decoding: an iteration after an abandoned one begins anew; proved for iterators and all interleavings of iterations, and for lists if the first iteration is complete')
c('C38', 'partial', 'Xigt.C38_partial Xigt.C38_refuted Xigt.C38_refuted_text Xigt.C38_refuted_raises', 'false for corpora with a type, items with empty text, attribute names with an unmatched brace and attributes in declared namespaces (C39); proved for all corpora without such data; between objects and JSON values; for the text see C91')
c('C39', 'partial', 'Xigt.C39_never_corpus Xigt.C39_never_item Xigt.C39_refuted Xigt.C39_partial', 'false for every attribute in a declared namespace; proved for undeclared namespaces')
c('C67', 'partial', 'Xigt.C67_partial Xigt.C67_refuted', 'false where an inner object declares a namespace again; proved where only the corpus declares namespaces')
c('C40', 'partial', 'Xigt.C40_partial Xigt.C42_refuted_igt Xigt.C40_refuted Xigt.C40_refuted_text Xigt.C40_refuted_ns Xigt.C40_refuted_cr Xigt.C40_refuted_key Xigt.C40_refuted_known',
  'Proved, for every indentation and every chunking of the input, for corpora that satisfy XmlKept and NamesOK. False in general: corpus type becomes an attribute, empty item text and line ends are lost, tiers in a namespace are dropped, attributes in undeclared namespaces raise KeyError.')
c('C41', 'partial', 'Xigt.C41_partial Xigt.C41_refuted',
  'Proved for corpora without namespace of their own and without MetaChild called igt or xigt-corpus (unless in a declared namespace), whose unindented document can be parsed. False when a text is blank for str.strip() but no XML (control characters).')
c('C42', 'partial', 'Xigt.C42_partial Xigt.C42_refuted Xigt.C42_refuted_igt',
  'Proved for every document of the layout (Layout: metadata then igts, no element inside called igt or xigt-corpus): opening, loading and the IGTs in every mode are independent of chunking and equal to decoding the whole tree. False for documents the writer makes when a MetaChild is called xigt-corpus or igt.')
c('C43', 'proved', 'Xigt.XP.C43_find_first Xigt.XP.C43_find_raises')
c('C44', 'partial', 'Xigt.XP.C44_partial Xigt.XP.C44_desc Xigt.XP.C44_refuted',
  'false when A is of the form (...): what follows the closing bracket is ignored; proved for all other paths of the grammar PPath.Ok, every axis')
c('C45', 'partial', 'Xigt.XP.C45_partial Xigt.XP.C45_root Xigt.XP.C45_refuted Xigt.XP.C45_corpus_refuted',
  'false for names with a prefix (the prefix is forgotten below the first object) and for the corpus itself; proved for all other names')
c('C46', 'partial', 'Xigt.XP.C46_eq_partial Xigt.XP.C46_ne_partial Xigt.XP.C46_exists_raises Xigt.XP.C46_refuted Xigt.XP.C46_nested_refuted Xigt.py_stripChars',
  'A[P] raises TypeError as soon as A finds something (proved), predicates within predicates do not parse; [P="v"] and [P!="v"] proved for paths P without predicates')
c('C47', 'partial', 'Xigt.XP.C47_partial Xigt.XP.C47_step_partial Xigt.XP.C47_refuted',
  'false for alternatives within alternatives after a first step: XigtPathError if that step finds nothing; proved otherwise')
c('C48', 'partial', 'Xigt.XP.C48_child_partial Xigt.XP.C48_star Xigt.XP.C48_prefixed_partial Xigt.XP.C48_attr_partial Xigt.XP.C48_attr_prefixed_partial Xigt.XP.C48_member Xigt.XP.C48_refuted Xigt.XP.C48_dot_refuted',
  'false for names that begin with text, value, referent or referrer or contain a full stop; proved for PlainName')
c('C49', 'partial', 'Xigt.Part.C49_partial Xigt.Part.C49_names Xigt.Part.C49_succeeds Xigt.Part.C49_refuted Xigt.Part.C49_refuted_ids',
  'false when two keys have the same file name (a:b and a-b, or the default key): the later file overwrites the earlier; raises XigtError when IGTs of one key share an ID; proved otherwise, for all files, key paths and orders')
c('C50', 'partial', 'Xigt.Srt.C50_partial Xigt.Srt.C50_succeeds Xigt.Srt.C50_total Xigt.Srt.C50_refuted',
  'the order holds whenever there is no TypeError; TypeError occurs only with several keys, when two objects have a different number of numerals in a key before the last (C50_refuted)')
c('C68', 'proved', 'Xigt.Srt.C68_reorders', '')
c('C51', 'partial', 'Xigt.Qry.C51_tally_partial Xigt.Qry.C51_tally_succeeds Xigt.Qry.C51_unique_partial Xigt.Qry.C51_unique_fails Xigt.Qry.C51_count Xigt.Qry.C51_tally_count Xigt.Qry.C51_refuted',
  'false for matches (unique) and groups (tally) containing objects: these are unhashable and the script fails with TypeError; proved otherwise')
c('C52', 'proved', 'Xigt.Vld.C52_run Xigt.Vld.C52_filter Xigt.Vld.C52_errors Xigt.Vld.C52_unreadable',
  'a file that cannot be parsed from the start is passed over, so it does not make the run fail (C52_unreadable)')
c('C53', 'partial', 'Xigt.Vld.C53_partial Xigt.Vld.C53_refuted',
  'false for spans: only items selected twice as a whole are noticed (proved)')
c('C54', 'partial', 'Xigt.Vld.C54_partial Xigt.Vld.C54_refuted Xigt.Vld.C54_refuted_empty',
  'proved for all corpora whose tier references are IDs of non-empty tiers; numeric tier references are taken as positions and references into empty tiers are not checked (refuted)')
c('C69', 'proved', 'Xigt.Vld.C69_spans', '')
c('C70', 'proved', 'Xigt.Vld.C70_finishes Xigt.Vld.C70_failures', 'C70_failures: other corpora with which it stops')
c('C55', 'proved', 'Xigt.Tbx.C55_words Xigt.Tbx.C55_tier', 'for the default options and any others in which words are aligned with the phrase tier')
c('C56', 'partial', 'Xigt.Tbx.C56_partial Xigt.Tbx.C56_in_word Xigt.Tbx.C56_precise Xigt.Tbx.C56_refuted',
  'false when morphemes are not found in order: begin > end, and a sole morpheme longer than its word ends beyond it; proved bounds that always hold and exact spans otherwise')
c('C57', 'partial', 'Xigt.Tbx.C57_partial Xigt.Tbx.utf8_compat Xigt.Tbx.latin1_compat Xigt.Tbx.C57_refuted',
  'proved for every encoding that agrees with ASCII on white space and takes a byte per character or more, shown for UTF-8 and ISO 8859-1; false for UTF-16')
c('C71', 'proved', 'Xigt.Tbx.C71_spell Xigt.Tbx.C71_morphemes Xigt.Tbx.C71_hyphens_refuted',
  'C71_hyphens_refuted: the example of the documentation, in which a hyphen of the word is no part of any morpheme, is not imported as described')
c('C72', 'proved', 'Xigt.Tbx.C72_tokens Xigt.Tbx.C72_ids_distinct', '')
c('C73', 'partial', 'Xigt.Tbx.C73_partial Xigt.Tbx.C73_refuted Xigt.Tbx.C73_collision',
  'false for keys beginning with a letter outside ASCII (ValueError) and for keys such as 1 and igt1 (same ID); proved for the others')
c('C74', 'proved', 'Xigt.Tbx.C74_alignment Xigt.py_str', '')
c('C58', 'partial', 'Xigt.Odin.C58_partial Xigt.Odin.C58_idempotent Xigt.Odin.C58_refuted',
  'false for every character outside the BMP: it is legal but replaced; proved for all others, with a legal character as replacement')
c('C75', 'proved', 'Xigt.Odin.C75_complete Xigt.Odin.C75_incomplete Xigt.Odin.C75_all', '')
c('C76', 'partial', 'Xigt.Odin.C76_partial Xigt.Odin.C76_refuted Xigt.Odin.C76_refuted_header Xigt.Odin.C76_refuted_empty Xigt.Odin.C76_refuted_language',
  'only the contents of lines are cleaned: control characters in other fields make the file unreadable; empty contents and unknown languages are not the same after reading; proved for all other blocks')
c('C59', 'proved', 'Xigt.Ltx.C59_charwise Xigt.Ltx.C59_injective', '')
c('C60', 'partial', 'Xigt.Ltx.C60_partial Xigt.Ltx.C60_kept Xigt.Ltx.C60_refuted Xigt.Ltx.C60_refuted_order Xigt.Ltx.C60_refuted_rows Xigt.Ltx.C60_refuted_range Xigt.Ltx.C60_refuted_empty',
  'proved for tiers with a non-empty first tier, IDs on all items and references to the previous tier in order; false otherwise: items that are not aligned are an exception or out of order or make a column too long')
c('C61', 'partial', 'Xigt.Tsdb.C61_numbers Xigt.Tsdb.C61_partial Xigt.Tsdb.C61_last Xigt.Tsdb.C61_refuted Xigt.Tsdb.C61_refuted_skip',
  'numbers proved for a positive skip; false for cells: all cells are computed by the last expression (a variable shared by closures), proved for configurations with one expression')
c('C77', 'partial', 'Xigt.Ltx.C77_partial Xigt.Ltx.C77_refuted Xigt.Ltx.C77_refuted_space Xigt.Ltx.C77_empty',
  'false when a letter or a space follows a character that is written as a control word; proved for all other strings')
c('C78', 'partial', 'Xigt.Ltx.C78_partial Xigt.Ltx.C78_refuted', 'proved as C60; false of references in another order')
c('C79', 'partial', 'Xigt.Ltx.C79_any Xigt.Ltx.C79_partial Xigt.Ltx.C79_comment Xigt.Ltx.reads_unique Xigt.Ltx.C79_refuted Xigt.Ltx.C79_refuted_empty Xigt.py_join', 'For a configuration without substitutions. C79_any: for every IGT that is exported, with each item exactly once. C79_partial: tiers as in C60 are exported, with their items in order. False of items that are not aligned (exception) and of items without content (shown as braces).')
c('C80', 'partial', 'Xigt.C80_partial Xigt.C80_iadd Xigt.C80_refuted_self Xigt.C80_refuted_iadd',
  'false of a container assigned to itself, which also happens in `x.metadata += ...`: everything is lost; proved for everything else')
c('C81', 'proved', 'Xigt.C81', '')
c('C82', 'partial', 'Xigt.C82_partial Xigt.C82_repair Xigt.C82_refuted_pop Xigt.C82_refuted_iadd',
  'false when an object with an ID comes or goes: the index is stale until refresh_index; proved for all other calls')
c('C83', 'partial', 'Xigt.C83_spans Xigt.C83_succeeds Xigt.C83_partial Xigt.C83_refuted_missing Xigt.C83_refuted_none Xigt.C83_refuted_delim',
  'proved for expressions with one-character delimiters whose items exist and have values; false otherwise: NameError, TypeError, or another delimiter')
c('C84', 'partial', 'Xigt.Qry.C84_partial Xigt.Qry.C84_default Xigt.Qry.C84_refuted_query Xigt.Qry.C84_refuted_braces Xigt.Qry.C84_refuted_nested',
  'false of queries and descriptions with braces in their text: they are formatted a second time; proved for all others without nested fields and indices')
c('C85', 'proved', 'Xigt.Qry.C85_agenda Xigt.Qry.C85_options', '')
c('C86', 'proved', 'Xigt.Qry.C86_table Xigt.Qry.C86_injective', '')
c('C87', 'proved', 'Xigt.Vld.C87_printed Xigt.Vld.C87_messages Xigt.Vld.C87_nothing Xigt.Vld.C87_heading Xigt.Vld.mem_positions Xigt.Vld.positions_sorted', '')
c('C88', 'partial', 'Xigt.Vld.C88_partial Xigt.Vld.C88_refuted', 'false of tier IDs with braces, which are formatted a second time; proved for all others')
c('C89', 'partial', 'Xigt.C89_partial Xigt.C89_anywhere Xigt.C89_refuted', 'proved under the conditions of C40 on the data; false without them')
c('C90', 'partial', 'Xigt.C90_layer Xigt.C90_partial Xigt.C90_fragment Xigt.C90_refuted',
  'proved under the conditions of C40 on the data; false of attribute names that are no names, which are written without a check')
c('C91', 'proved', 'Xigt.C91_layer Xigt.C91_ascii Xigt.C91_text Xigt.C91_equal Xigt.jok_corpus', '')
c('C92', 'proved', 'Xigt.Tbx.C92_igts Xigt.Tbx.C92_dropped Xigt.Tbx.igtAttrs_spec', '')
c('C93', 'partial', 'Xigt.Tbx.C93_partial Xigt.Tbx.C93_refuted Xigt.Tbx.C93_refuted_empty Xigt.Tbx.C93_refuted_chars',
  'false of records whose keys give the same ID, of lines without words and of illegal characters; proved for all others')
c('C94', 'proved', 'Xigt.Tbx.C94_markers Xigt.Tbx.C94_fails', '')
c('C95', 'proved', 'Xigt.Srt.C95_stages', '')
c('C96', 'proved', 'Xigt.Qry.C96_file', '')
c('C97', 'partial', 'Xigt.XP.C97_referent_partial Xigt.XP.C97_referrer_partial Xigt.XP.C97_item Xigt.XP.C97_refuted',
  'false of several reference attributes in one step: all but the first are lost in tokenizing; proved for none or one')
c('C98', 'partial', 'Xigt.Rng.C98_iff Xigt.Rng.C98_refuted Xigt.Rng.C98_refuted_type Xigt.Rng.C98_refuted_id Xigt.Rng.C98_refuted_refs',
  'false: the code requires neither the IDs nor the types the schema does, checks only the beginning of an ID, and lets attributes through that exclude each other; C98_iff (for the data of C40) says exactly which corpora are written as valid documents')
c('C99', 'proved', 'Xigt.Vld.C99_heading Xigt.Vld.C99_message Xigt.Vld.C99_reads', '')
c('C100', 'partial', 'Xigt.Rng.C100_partial Xigt.Rng.C100_refuted Xigt.Rng.C100_refuted_mixed Xigt.Rng.C100_refuted_id Xigt.Rng.C100_refuted_igt Xigt.Rng.C100_refuted_type Xigt.Rng.C100_refuted_name',
  'false: identifiers may be repeated, and in metadata some names, attributes and text are rejected or lost; proved of all documents without these, which are read exactly if siblings have different identifiers')
c('C101', 'partial', 'Xigt.Rng.algn_iff Xigt.Rng.C101_written Xigt.Rng.C101_partial Xigt.Rng.C101_refuted Xigt.Rng.C101_refuted_space',
  'false of identifiers with symbols, which the schema allows and the code takes for delimiters, and of lists with spaces, which only the code reads; the grammar of the schema (algn_iff) and the written direction are proved of all expressions, reading of all valid strings without symbols')
c('C102', 'partial', 'Xigt.Rng.C102_odin Xigt.Rng.C102_toolbox Xigt.Rng.C102_refuted Xigt.Rng.C102_refuted_key',
  'false of blocks without an identifier and of keys with other characters than those of identifiers; for input that can be written and read (C76, C93) the theorems say exactly when the result is valid')
c('C103', 'partial', 'Xigt.Rng.C103_iff Xigt.Rng.C103_both Xigt.Rng.C103_refuted Xigt.Rng.C103_refuted_text',
  'false: xigt.rnc without extensions allows no tier with a type, and xigt-structure.rnc none without (C103_both), and text alone in a meta is not allowed; C103_iff (for the data of C40) says exactly which corpora are written as documents valid against xigt.rnc')
c('C104', 'partial', 'Xigt.Rng.C104_odin Xigt.Rng.C104_refuted',
  'false with keep_headers; for blocks that can be written and read (C76), C104_odin says exactly when the result is valid')
c('C105', 'partial', 'Xigt.Rng.C105_toolbox Xigt.Rng.C105_refuted_pos Xigt.Rng.C105_refuted_attribute',
  'false of parts of speech and of the attribute corpus-id, which the default options make and the default schema lacks; C105_toolbox says exactly what is valid of what is imported; of corpora in general, with metadata, see C120')
c('C106', 'partial', 'Xigt.Files.C106_directory Xigt.Files.C106_file Xigt.Files.C106_mismatch Xigt.Files.C106_refuted Xigt.Files.C106_refuted_directory',
  'false when an output file is its own input (the file is emptied before it is read): C106_refuted, C106_refuted_directory; true otherwise')
c('C107', 'partial', 'Xigt.Files.C107_partial Xigt.Files.C107_exists Xigt.Files.C107_refuted',
  'false when keys contain a slash: they are taken as paths, also out of the output directory and onto the input files; true otherwise. The contents of the output files are those of C49')
c('C108', 'partial', 'Xigt.Files.C108_partial Xigt.Files.C108_twice Xigt.Files.C108_refuted',
  'that only the file changes and that it has the reordered corpus is proved of all files; that it can be read again is proved of documents as in C109 and false of a default namespace inside a meta; that sorting again leaves it as it is, for keys as in C110')
c('C109', 'partial', 'Xigt.C109_partial Xigt.C109_refuted Xigt.C109_refuted_xml',
  'false of a default namespace inside a meta, which is written with an empty prefix, and of elements in the namespace of xml, which are written without it; proved of documents in the layout of C42 without these, whose corpus has no type')
c('C110', 'partial', 'Xigt.Srt.C110_partial Xigt.Srt.C110_deps Xigt.Srt.C110_refuted',
  'false of IGT keys that look at tiers, since tiers are sorted after the IGTs; proved for keys that are attributes of the object or of what it is in, or its text, and (C110_deps) for tier dependencies if the tiers have different IDs')
c('C111', 'partial', 'Xigt.Ltx.C111_partial Xigt.Files.C111_refuted Xigt.Files.C111_refuted_par',
  'false of IDs with line breaks, which get out of their comment, and of texts with empty lines, which end a paragraph inside a group; true if IDs and texts are in one line and there are no substitutions')
c('C112', 'partial', 'Xigt.Files.C112_partial Xigt.Files.C112_unopened Xigt.Files.C112_document Xigt.Files.C112_refuted',
  'false of an exception in the middle, which leaves a file that TeX cannot read to its end; C112_partial says what the file is in each case')
c('C113', 'proved', 'Xigt.Mu.C113_tree Xigt.Mu.C113 Xigt.Mu.C113_bare Xigt.Mu.C113_exact Xigt.Mu.C113_refs Xigt.Mu.C113_lex Xigt.Mu.C113_lines', '')
c('C114', 'partial', 'Xigt.Mu.C114_never Xigt.Files.C114_refuted',
  'false: the parser forgets comments and processing instructions, and nothing is ever written with one (C114_never)')
c('C115', 'proved', 'Xigt.Ord.C115_open Xigt.Ord.C115 Xigt.Ord.C115_sorted Xigt.Ord.C115_roundtrip')
c('C116', 'partial', 'Xigt.Ord.C116_partial Xigt.Ord.C116_same Xigt.Ord.C116_refuted',
  'true where the serialiser sorts attributes by their keys (python 3.6 and 3.7); false with later versions, which write them in order of insertion')
c('C117', 'partial', 'Xigt.Byt.C117_partial Xigt.Byt.C117_refuted',
  'Proved for all corpora of C40, all indentations and all encodings (ASCII characters are their own bytes) of which the parser knows the name, provided that the encoding has the characters of the names of attributes, MetaChildren and prefixes. Refuted without that condition: names are written with references, which no parser accepts.')
c('C118', 'partial', 'Xigt.Byt.C118_partial Xigt.Byt.C118_refuted',
  'Proved for encodings that UTF-8 contains (UTF-8, US-ASCII). Refuted for ISO 8859-1: loads() decodes all bytes as UTF-8, so that a text may be read as another one without an error.')
c('C119', 'partial', 'Xigt.Cnv.C119_text Xigt.Cnv.C119_partial Xigt.Cnv.C119_same Xigt.Cnv.C119_refuted Xigt.Cnv.C119_refuted_type',
  'Proved of documents as in C109 in which only the corpus declares namespaces and no type is empty, also with attributes in namespaces, which JSON alone does not keep (C39). False where an inner element declares a namespace (an element comes out of its namespace) and of empty types.')
c('C120', 'proved', 'Xigt.Rng.C120_iff Xigt.Rng.C120_tiers Xigt.Rng.C120_text',
  'For the corpora that XML keeps (C40). C120_tiers: a note on a language must name its tiers. C120_text: as the type of a note is optional, an untyped note with mere text is allowed as if it were a date, though xigt.rnc does not allow it.')
c('C121', 'partial', 'Xigt.Vld.C121_status Xigt.Vld.C121_levels Xigt.Vld.C121_quiet Xigt.Vld.C121_refuted Xigt.Vld.C121_partial',
  'C121_status is exact for all options and files. The claim holds without options, for files that can be read to the end. False with -q (errors do not count), with -v (warnings do), and for files that cannot be parsed (status 0).')
c('C122', 'partial', 'Xigt.C122_partial Xigt.C122_cached Xigt.C122_errors Xigt.C122_refuted',
  'Proved where no ID is used twice and IDs are valid, with a list of attributes and, right after refresh_indices(), without. False of an item with the ID of a tier.')
c('C123', 'proved', 'Xigt.C123_span Xigt.C123_reference Xigt.between_unique',
  'What stands between two places is stated by length and characters, without slices.')
c('C124', 'partial', 'Xigt.C124_partial Xigt.C124_tier Xigt.C124_refuted Xigt.C124_refuted_removed',
  'Proved where no ID is used twice and the item index has the current items only, as in a new igt. False of removed items, which are still found, and of get_aligned_tier without the attribute, which raises NameError.')
c('C125', 'partial', 'Xigt.C125_partial Xigt.C125_refuted Xigt.C125_refuted_none',
  'Proved of assignments of strings, but for the exclusion of segmentation, which only the constructor checks (refuted). Assigning None leaves an attribute that makes the functions of ref.py raise TypeError.')
c('C126', 'partial', 'Xigt.Qry.C126_partial Xigt.Qry.C126_file Xigt.Qry.C126_begun Xigt.Qry.C126_usage Xigt.Qry.C126_described Xigt.Qry.basename_spec Xigt.Qry.C126_refuted',
  'Proved with an action among the options. False without: instead of a message about the usage there is an AttributeError.')
c('C127', 'partial', 'Xigt.C127_partial Xigt.C127_text Xigt.C127_refuted Xigt.Qry.C127_refuted_query',
  'repr() raises exactly what value() of an item raises. False of items on a circle of references; one item that cannot be shown ends xigt query --find.')
c('C128', 'partial', 'Xigt.XP.C128_cut Xigt.XP.C128_partial Xigt.XP.C128_refuted',
  'What becomes of every string is proved exactly. False of exclamation marks that are not before an equals sign: they are dropped without an error.')
c('C129', 'partial', 'Xigt.C129_partial Xigt.C129_none Xigt.C129_refuted Xigt.C129_refuted_assigned',
  'Proved for edits without item assignment in which no object is put into two containers. False of objects that were removed or cleared, which keep what they were in, and of objects assigned to a place, which have None.')
c('C130', 'partial', 'Xigt.Cnv.C130_partial Xigt.Cnv.C130_refuted',
  'Proved for corpora that XML keeps (C40), with namespaces on the corpus only and no empty types. The order of "namespaces" in JSON is that of a Python set; it is taken as that of the corpus. False of carriage returns.')
c('C131', 'partial', 'Xigt.C131_same Xigt.C131_partial Xigt.C131_refuted Xigt.C131_refuted_taken',
  'False unless refresh_index() is called after the renaming (the object is found under its old ID only and cannot be removed), and nothing rejects an ID that is taken. Proved with refresh_index(); C131_same says exactly what the assignment does.')
c('C132', 'partial', 'Xigt.C132_partial Xigt.C132_attribute_partial Xigt.C132_refuted',
  'Values and references are proved of all equal IGTs, attributes where the key is in full. False of attributes asked for with a prefix, since == ignores the declarations of namespaces.')
c('C133', 'partial', 'Xigt.C133_xml_partial Xigt.C133_json_partial Xigt.C133_refuted_xml Xigt.C133_refuted_json',
  'Proved for the corpora of C40 and C38. False of items with an empty text that also have content or segmentation: the text is lost and the value of what they refer to takes its place.')
c('C134', 'partial', 'Xigt.Srt.C134_partial Xigt.Srt.C134_tiers_partial Xigt.Srt.C134_refuted',
  'Proved of IGTs in which no two tiers, and no two items of a tier, have the same ID, and tiers are referred to by name. False of references to a tier by its number, which get() allows.')
c('C135', 'partial', 'Xigt.Vld.C135_partial Xigt.Vld.C135_circular Xigt.Vld.C135_refuted',
  'Proved of items whose reference is made of selections joined by + or , and whose tier refers to a tier that has items; circular references are never passed over. False of references to tiers without items, which the validator takes for no reference.')
c('C136', 'partial', 'Xigt.Tbx.C136_partial Xigt.Tbx.C136_file Xigt.Tbx.C136_refuted Xigt.Tbx.C136_refuted_keys',
  'Proved for tier IDs that do not end in a digit (as by default) and keys that give different IDs, whatever the fields are; for the file also what C93 asks for. False of a tier a1 beside a tier a with eleven items, and of the keys 7 and igt7.')
c('C137', 'partial', 'Xigt.Odin.C137_partial Xigt.Odin.C137_file Xigt.Odin.C137_refuted Xigt.Odin.C137_refuted_refs',
  'Proved for blocks with different IDs, or none, and lines without segmentation and alignment; for the file also what C76 asks for. False of blocks with the same ID, and of lines that say something under segmentation.')
c('C138', 'partial', 'Xigt.Vld.C138_equal Xigt.Vld.C138_xml_partial Xigt.Vld.C138_run_partial Xigt.Vld.C138_json_partial Xigt.Vld.C138_refuted_xml Xigt.Vld.C138_refuted_json',
  'Proved of all equal corpora, and of files for the corpora of C40 and C38. False of an item with an empty text of which another selects a part: of the corpus the validator reports this, with the file it fails.')
c('C139', 'partial', 'Xigt.Vld.C139_partial Xigt.Vld.C139_tiers_partial Xigt.Vld.C139_passes_partial Xigt.Vld.C139_refuted',
  'Proved of IGTs in which no two tiers, and no two items of a tier, have the same ID, and tiers are referred to by name; that what passes still passes needs the latter only. False of references to a tier by its number, which get() allows.')
c('C140', 'partial', 'Xigt.Rng.C140_syntax Xigt.Rng.C140_dependencies Xigt.Rng.C140_both Xigt.Rng.C140_typed Xigt.Rng.C140_refuted',
  'What the extensions allow is proved exactly, and that what both allow xigt.rnc allows too. False as to blocking: items in such tiers may have content and alignment instead of the references of the extension.')
c('C141', 'partial', 'Xigt.Opt.C141_given Xigt.Opt.C141_same Xigt.Opt.C141_again Xigt.Opt.C141_default Xigt.Opt.C141_odin Xigt.Opt.C141_safe Xigt.Opt.C141_run Xigt.Opt.C141_partial Xigt.Opt.C141_refuted',
  'All proved but that every such configuration can be used: exactly those can that have a marker for each of two aligned interlinear tiers. With only a tier_map there is a KeyError, as the default alignments are kept.')
c('C142', 'partial', 'Xigt.C142_value Xigt.C142_references Xigt.C142_descendants Xigt.C142_ancestors_partial Xigt.C142_refuted',
  'Values, references and descendants() are proved for all renamings; ancestors() for tiers whose IDs have more than one character. It is false of others: visited.update(reftier.id) adds the characters of the ID, so a tier named with one of them is taken as visited.')
c('C143', 'partial', 'Xigt.XP.C143_partial Xigt.XP.C143_alike_partial Xigt.XP.C143_xml_partial Xigt.XP.C143_json_partial Xigt.XP.C143_refuted_order Xigt.XP.C143_refuted_prefix',
  'Proved of equal corpora for paths without prefixes and without @*, and of all paths where prefixes stand for the same and attributes are in the same order; so of corpora saved in XML or JSON and loaded again in which only the corpus declares namespaces. False of @* and of prefixes otherwise, as == does not look at either.')
c('C144', 'partial', 'Xigt.Js.C144_value Xigt.Js.C144_text Xigt.Js.C144_one Xigt.Js.C144_members Xigt.Js.C144_refuted_type Xigt.Js.C144_refuted_child Xigt.Js.C144_refuted_null',
  'Proved exactly, but for the type of a corpus and the ID and type of a MetaChild, which the decoders do not pass on. null is read as a missing member for strings and attributes, and is an error for namespaces and lists. The model has no numbers and booleans.')
c('C145', 'partial', 'Xigt.Srt.C145_sort_partial Xigt.Srt.C145_xml_partial Xigt.Srt.C145_refuted_prefix Xigt.Srt.C145_refuted_order',
  'Proved of equal corpora for keys without prefixes and without @*; of saved and loaded corpora for all keys, if only the corpus declares namespaces. False of prefixes and of @* otherwise: == looks neither at declarations nor at the order of attributes.')
c('C146', 'proved', 'Xigt.Ltx.C146_latex Xigt.Ltx.C146_xml Xigt.Ltx.C146_json',
  'Proved of all equal corpora; for saved corpora with the conditions of C40 and C38, which say what the formats keep. Substitutions are arbitrary functions, lower() too.')
c('C147', 'partial', 'Xigt.Srt.C147_partial Xigt.Srt.C147_count_partial Xigt.Srt.C147_strings_partial Xigt.Srt.C147_refuted',
  'Proved of all paths with value() only where tiers are referred to by unique IDs, and with referent() and referrer() only where the IDs of an IGT are unique and no numbers. False otherwise: a tier may be referred to by its place, and of two items with one ID get_any() finds the last.')
c('C148', 'partial', 'Xigt.Part.C148_partial Xigt.Part.C148_refuted',
  'Proved of paths into IGTs, also absolute ones, without .. or an absolute path afterwards; a path that begins with // or * needs corpora without metadata. IGTs have namespaces of their own, as those read from files do, and keys have different file names (C49). False otherwise: the metadata of corpora is not written.')
c('C149', 'proved', 'Xigt.Rng.C149_iff Xigt.Rng.C149_extends Xigt.Rng.C149_syntax Xigt.Rng.C149_loose',
  'What the schema allows is proved exactly, and that it extends the default schema. C149_loose shows what it does not say: an item without children may be a segment of something, so it need not be part of the tree at all.')
c('C150', 'partial', 'Xigt.Rng.C150_reads_partial Xigt.Rng.C150_partial Xigt.Rng.C150_sort_partial Xigt.Rng.C150_refuted',
  'Proved of documents whose metadata is as in C100, with text before children, and for rewriting without a default namespace as in C109. Reading and validity afterwards are proved for all seven schemata. False of documents that no schema allows: text where none belongs is dropped, so an invalid document may become valid.')
c('C151', 'partial', 'Xigt.Rng.C151_partial Xigt.Rng.C151_run_partial Xigt.Rng.C151_refuted',
  'Proved of the documents of C150 in which no two siblings have the same identifier, for all seven schemata, in a file system for keys without / (as in C107). The converse is false: what is wrong with a corpus itself is not in the files of the partition.')
c('C152', 'proved', 'Xigt.Cmd.C152_iff Xigt.Cmd.C152_script Xigt.Cmd.C152_process Xigt.Cmd.C152_unknown Xigt.Cmd.C152_dashes_refuted',
  'Both directions, for all command lines. -- directly after the name does not reach the script, so that a file whose name begins with - cannot be named that way.')
c('C153', 'proved', 'Xigt.Cmd.C153_sort Xigt.Cmd.C153_partition Xigt.Cmd.C153_query Xigt.Cmd.C153_validate Xigt.Cmd.C153_formats Xigt.Cmd.C153_import Xigt.Cmd.C153_export Xigt.Cmd.C153_partition_refuted Xigt.Cmd.C153_query_refuted Xigt.Cmd.C153_default_key Xigt.Cmd.C153_partition_dashes_refuted',
  'Of options written in full; values that stand apart from their option, and files without -- before them, do not begin with -. Abbreviated options and several letters in one argument are modelled but not stated. Files apart from each other are not taken, and of the files of a partition one called -- is lost.')
c('C154', 'proved', 'Xigt.Rng.C154_iff Xigt.Rng.C154_types Xigt.Rng.C154_alone Xigt.Rng.C154_loose',
  'What the schema allows is proved exactly. C154_loose shows what it does not say: metadata on the language of an IGT is never needed, nor checked since plain metadata is allowed too, and items of dependencies need no dependent.')
c('C155', 'proved', 'Xigt.Cmd.C155_origin Xigt.Cmd.C155_sort Xigt.Cmd.C155_output Xigt.Cmd.C155_partition Xigt.Cmd.C155_word',
  'For all command lines, without any condition on how they are written. That the value of an option stands directly after it is not stated here, but in C153 for options written in full.')
c('C156', 'partial', 'Xigt.Files.C156_partial Xigt.Files.C156_reads Xigt.Files.C156_sort Xigt.Files.C156_refuted',
  'Proved of the whole program for all command lines, but of partitions only for keys without / (C107): with a key like ../in a partition replaces its own input. Suffixes for ODIN are plain (C106); of the library for itsdb it is assumed that it writes only below the output. What the shell does with standard output is not modelled.')
c('C157', 'proved', 'Xigt.Files.C157_sort Xigt.Files.C157_partition Xigt.Files.C157_query Xigt.Files.C157_validate Xigt.Files.C157_import Xigt.Files.C157_export Xigt.Files.C157_sorted Xigt.Files.C157_twice Xigt.Files.C157_partitioned Xigt.Files.C157_imported Xigt.Files.C157_exported',
  'The first six are equations: the program is the script with what is said. The others put these together with C107, C108, C106 and C112 and have their conditions: documents as in C109 for sorting, keys without / for partitions, another output than the input for import and export, and a configuration that can be read. The work of the importers and of itsdb is a parameter here (C86 and others are about it).')
c('C158', 'proved', 'Xigt.Js.C158_exact Xigt.Js.C158_error Xigt.Js.C158_one Xigt.Js.C158_written Xigt.Js.C158_corpus Xigt.Js.C158_alike Xigt.Js.C158_never',
  'The reader is a model of the module json, which is not in the repository, written character by character. Python also reads numbers, true, false, NaN and halves of surrogate pairs; the model rejects texts with these, so nothing is claimed of them. C158_corpus is C144 for texts.')
c('C159', 'partial', 'Xigt.Xs.C159_names Xigt.Xs.C159_each Xigt.Xs.C159_partial Xigt.Xs.C159_never Xigt.Xs.C159_one Xigt.Xs.C159_refuted',
  'Which texts are read, how names are resolved and what each decoder makes of an element are proved for all texts. What is loaded is that only of documents with the layout of C42 (metadata before IGTs, and no other elements of these names): metadata after IGTs is not loaded (C159_refuted). The parser is a model of lxml; &#13; in text is read as a newline there.')
c('C160', 'partial', 'Xigt.Vld.C160_passes Xigt.Vld.C160_partial Xigt.Vld.C160_back_partial Xigt.Vld.C160_files_partial Xigt.Vld.C160_status Xigt.Vld.C160_refuted Xigt.Vld.C160_refuted_back',
  'That what passes still passes is proved of problems above the level of information; new corpora have no ID, which is information. The reports are the same, and the converse holds, if keys have different file names (C49) and no two IGTs of a file have the same ID: these may get into different files, and the error is gone. In the file system, for documents as in C109 and keys without /.')
c('C161', 'proved', 'Xigt.Vld.C161_file Xigt.Vld.C161_append Xigt.Vld.C161_status Xigt.Vld.C161_reads',
  'The first two say what is printed for any list of files, also before an exception. Lines are compared as a list of texts: an ID with a line break in it could look like several lines. C161_reads is of runs that go to their ends, without colours (with colours see C99). The messages are in the log (C87, C88), not on the standard output.')
c('C162', 'partial', 'Xigt.Qry.C162_equal_partial Xigt.Qry.C162_xml_partial Xigt.Qry.C162_sort_partial Xigt.Qry.C162_partition_partial Xigt.Qry.C162_refuted_tally Xigt.Qry.C162_refuted_unique',
  'Of the matches that find shows only strings and None: the text of an object contains its address. Equal corpora: paths without prefixes and @* (C143); loaded ones: as in C143. Sorting: the output is that of runs that come to their end, for find, count and unique (the groups of a tally change, C162_refuted_tally), with paths as in C147. Partitions: paths and files as in C148; numbers of different results do not add up (C162_refuted_unique).')
c('C163', 'partial', 'Xigt.Tsdb.C163_cell Xigt.Tsdb.C163_partial Xigt.Tsdb.C163_words Xigt.Tsdb.C163_equal Xigt.Tsdb.C163_refuted Xigt.Tsdb.C163_refuted_empty Xigt.Tsdb.C163_refuted_odin',
  'C163_cell says what is in the cell of every IGT, and that all others raise an exception. Texts are proved of IGTs without phrases: with phrases the cell is always an Item, not its text (C163_refuted), and an empty tier of phrases is an IndexError (C163_refuted_empty). What the ODIN importer makes always has an empty input (C163_refuted_odin). Writing the profile is done by delphin.')
c('C164', 'partial', 'Xigt.Ltx.C164_igts Xigt.Ltx.C164_tiers_partial Xigt.Ltx.C164_deps_partial Xigt.Ltx.C164_partial Xigt.Ltx.C164_partition_partial Xigt.Tsdb.C164_rows Xigt.Ltx.C164_refuted Xigt.Tsdb.C164_refuted_numbers',
  'Proved without conditions of sorted IGTs. Sorted tiers: in IGTs as in C134 (unique IDs, and tiers referred to by name) if words, morphemes, glosses and translations keep their order; else the sorted corpus may not be exported at all (C164_refuted). Partitions: if keys have different file names (C49). The numbers of rows change with the order (C164_refuted_numbers), so they do not identify an IGT.')
c('C165', 'partial', 'Xigt.Tsdb.C165_profile Xigt.Tsdb.C165_rows Xigt.Tsdb.C165_nothing Xigt.Tsdb.C165_named Xigt.Tsdb.C165_only Xigt.Tsdb.C165_command Xigt.Tsdb.C165_refuted',
  'All but the last sentence is proved; without a Relations file the status is 0 too, and nothing was exported (C165_refuted): the error is only in the log. Configurations are as the code expects them (numbers are integers, cells pairs of texts), except in C165_nothing, C165_named and C165_only. The library delphin and eval are parameters; C165_only is what C156 assumes of this exporter.')
c('C166', 'proved', 'Xigt.Files.C166_same Xigt.Files.C166_partition Xigt.Files.C166_quiet Xigt.Files.C166_more Xigt.Files.C166_sort Xigt.Files.C166_sort_lines Xigt.Files.C166_command_sort Xigt.Files.C166_command_partition',
  'The module logging is read as: a message is a line LEVEL:root:message on standard error if its level is at least that of basicConfig. The traceback of an exception that is not caught is not modelled, nor are the logs of the other scripts, but for validate (C52, C121).')
c('C167', 'partial', 'Xigt.Tbx.C167_tiers Xigt.Tbx.C167_record Xigt.Tbx.C167_append Xigt.Tbx.C167_all Xigt.Tbx.C167_stops Xigt.Tbx.C167_refuted_twice Xigt.Tbx.C167_refuted_short',
  'All but the last sentence is proved. It is false (C167_refuted_twice, C167_refuted_short): with a marker twice in a record, or a line with fewer cells than the one it is aligned with has tokens, the exception is not handled and nothing is imported; C167_stops says so of every record that does not fit, unless it is unusable in the sense of C92, the only ones that can be left out. What the module toolbox makes of a file is a parameter: whether it ever gives fewer cells is not in this repository.')
c('C168', 'partial', 'Xigt.Tbx.C168_same Xigt.Tbx.C168_accounts Xigt.Tbx.C168_stopped Xigt.Tbx.C168_count Xigt.Tbx.C168_quiet Xigt.Tbx.C168_refuted',
  'All proved but that the record that stops the import is named: nothing in the log tells which it was (C168_refuted). Of each message only its first line is modelled; the second is the text of the exception. Records with the same key cannot be told apart in the log.')
c('C169', 'partial', 'Xigt.C169_same Xigt.C169_last Xigt.C169_new Xigt.C169_again Xigt.C169_partial Xigt.C169_refuted_none Xigt.C169_refuted_equal Xigt.C169_refuted_removed',
  'All but the last sentence but one is proved. It is false: two different items without IDs give a warning of the item "None" (C169_refuted_none), two items with the same ID that are equal give none (C169_refuted_equal), and an item that was taken out is still warned of when another gets its ID, since refreshing does not clear the index (C169_refuted_removed). Which warnings are shown depends on the filters of the module warnings, which are not modelled.')
c('C170', 'partial', 'Xigt.Tbx.C170_partial Xigt.Tbx.C170_unwarned Xigt.Tbx.C170_file Xigt.Tbx.C170_refuted',
  'Proved of tier IDs that do not end in a digit, among them the defaults. If a tier has the ID of another followed by a digit, two items can have the same ID; one of them is not found, and there is a warning (C170_refuted). Warnings and files: of records as in C93 (legal characters, tokens that are not empty).')
c('C171', 'partial', 'Xigt.Odin.C171_partial Xigt.Odin.C171_only Xigt.Odin.C171_unwarned Xigt.Odin.C171_file Xigt.Odin.C171_refuted',
  'Proved of blocks with different IDs; of blocks with the same ID only the lines of the first are found (C171_refuted). Warnings and files: of blocks as in C76 (Writable). The attributes are those of lines whose keys are different, as in every dictionary of python.')
c('C172', 'partial', 'Xigt.Tbx.C172_same Xigt.Tbx.C172_record Xigt.Tbx.C172_stopping Xigt.Tbx.C172_partial Xigt.Tbx.C172_stopped Xigt.Tbx.C172_count Xigt.Tbx.C172_named Xigt.Tbx.C172_refuted_second Xigt.Tbx.C172_refuted_stopped Xigt.Tbx.C172_refuted_unnamed',
  'Proved: of each record exactly the first warning is passed on, with the identifier if the toolbox module issued it. False are: that all are passed on (C172_refuted_second), that those of the record that stops the import are (C172_refuted_stopped), and that those of the Igt come with the identifier (C172_refuted_unnamed). With tier IDs that do not end in a digit and records as in C93 all warnings are of the toolbox module and so have the identifier (C172_named). What the toolbox module warns of is a parameter; which warnings are shown depends on the filters of the module warnings, which are not modelled.')
c('C173', 'partial', 'Xigt.Mdt.C173_write Xigt.Mdt.C173_self Xigt.Mdt.C173_new Xigt.Mdt.C173_string Xigt.Mdt.C173_both Xigt.Mdt.C173_refuted_string Xigt.Mdt.C173_refuted_empty',
  'All proved but that a string is put in an untyped Meta, which is so only when a Metadata is made. A string that is assigned to text is an error, and what the Metadata contained is lost (C173_refuted_string); an empty string empties it without an error (C173_refuted_empty). If a list cannot be assigned, the Metadata contains what comes before the first object that cannot be taken (C173_write). If the ID is not accepted there is a ValueError before all of this.')
c('C174', 'partial', 'Xigt.Tbx.C174_partial Xigt.Tbx.C174_rows Xigt.Tbx.C174_file Xigt.Tbx.C174_refuted',
  'All proved but that i-input is a string. If a tier of phrases is made, which is so by default, it is not a string but an Item, whose text is this string (C174_refuted, as in C163); it is a string if no phrases are made (CellOf.text). Options: one tier has the type words, and phrases are only those made of the words, as by default (defaults_words). Through a file (C174_file): of records as in C93. What becomes of an Item when the third-party module writes it is not modelled.')
c('C175', 'partial', 'Xigt.C175_write Xigt.C175_full Xigt.C175_partial Xigt.C175_refuted',
  'Proved in full mode, and in every mode once the corpus was read completely. Before that it is false in incremental and transient mode, of all sources and lists without common IDs: what is read first is what the source has, and read again it is the list that was assigned and then, in incremental mode, all of the source (C175_refuted).')
c('C176', 'partial', 'Xigt.C176_add Xigt.C176_set Xigt.C176_clear Xigt.C176_partial Xigt.C176_refuted',
  'Proved for assigning (C176_set) and clearing (C176_clear). Of adding and removing: proved for objects with IDs, and for objects without that no object before them in the container equals (for adding: no object in it). Another object without an ID that equals it and comes before it is removed in its place, and inserting the object again has it twice (C176_refuted). Histories are those of C01, with the exceptions named there. The parent of a removed object stays what it was; see C129.')
