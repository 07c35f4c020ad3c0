{
 "claims": [
  {
   "property": "C01",
   "status": "partial",
   "theorems": [
    "Xigt.C01_partial",
    "Xigt.C01_refuted",
    "Xigt.py_dict_get",
    "Xigt.py_dict_set"
   ],
   "note": "Fails as stated: removing a foreign object whose ID is taken leaves the contained object unreachable (C01_refuted). Proved for all histories without such removals and without item assignments rejected for a duplicate ID."
  },
  {
   "property": "C02",
   "status": "partial",
   "theorems": [
    "Xigt.C02_partial",
    "Xigt.C02_duplicate_rejected",
    "Xigt.C02_refuted"
   ],
   "note": "Same two exceptions as C01; C02_refuted shows a duplicate after the removal of a foreign object."
  },
  {
   "property": "C03",
   "status": "partial",
   "theorems": [
    "Xigt.C03_append_insert",
    "Xigt.C03_extend",
    "Xigt.C03_del",
    "Xigt.C03_partial",
    "Xigt.C03_refuted_setitem",
    "Xigt.C03_refuted_remove"
   ],
   "note": "Holds for append, insert, extend (prefix), del, and the other failures of remove and item assignment; fails for item assignment with a duplicate ID and for removing a foreign object with a contained ID."
  },
  {
   "property": "C04",
   "status": "partial",
   "theorems": [
    "Xigt.C04_partial",
    "Xigt.C04_call",
    "Xigt.C04_last",
    "Xigt.C04_refuted_setitem",
    "Xigt.C04_refuted_rejected_append"
   ],
   "note": "In all histories the parent of an object is the container of the last call that reached it (C04_last). Item assignment does not set the parent; a rejected append changes the parent. Proved for histories without item assignment in which each object goes to one container only."
  },
  {
   "property": "C05",
   "status": "proved",
   "theorems": [
    "Xigt.C05_indexing",
    "Xigt.C05_contents",
    "Xigt.py_get",
    "Xigt.py_insert"
   ],
   "note": ""
  },
  {
   "property": "C06",
   "status": "proved",
   "theorems": [
    "Xigt.C06_refresh"
   ],
   "note": ""
  },
  {
   "property": "C07",
   "status": "partial",
   "theorems": [
    "Xigt.C07_partial",
    "Xigt.C07_refuted"
   ],
   "note": "Fails for equal objects without ID (C07_refuted); proved whenever no earlier element is equal, in particular always for objects with an ID."
  },
  {
   "property": "C08",
   "status": "proved",
   "theorems": [
    "Xigt.C08_homogeneous",
    "Xigt.C08_rejected"
   ],
   "note": ""
  },
  {
   "property": "C09",
   "status": "partial",
   "theorems": [
    "Xigt.C09_refuted",
    "Xigt.C09_partial"
   ],
   "note": "Fails as stated: the ID check is not end-anchored (\"a b\" is accepted). Proved: exact set of accepted strings, and an accepted string is recovered iff it is a full ID."
  },
  {
   "property": "C10",
   "status": "proved",
   "theorems": [
    "Xigt.C10_eq_is_same_data",
    "Xigt.C10_equivalence",
    "Xigt.C10_congruent",
    "Xigt.C10_members"
   ],
   "note": ""
  },
  {
   "property": "C100",
   "status": "partial",
   "theorems": [
    "Xigt.Rng.C100_partial",
    "Xigt.Rng.C100_refuted",
    "Xigt.Rng.C100_refuted_mixed",
    "Xigt.Rng.C100_refuted_id",
    "Xigt.Rng.C100_refuted_igt",
    "Xigt.Rng.C100_refuted_type",
    "Xigt.Rng.C100_refuted_name"
   ],
   "note": "false: identifiers may be repeated, and in metadata some names, attributes and text are rejected or lost; proved of all documents without these, which are read exactly if siblings have different identifiers"
  },
  {
   "property": "C101",
   "status": "partial",
   "theorems": [
    "Xigt.Rng.algn_iff",
    "Xigt.Rng.C101_written",
    "Xigt.Rng.C101_partial",
    "Xigt.Rng.C101_refuted",
    "Xigt.Rng.C101_refuted_space"
   ],
   "note": "false of identifiers with symbols, which the schema allows and the code takes for delimiters, and of lists with spaces, which only the code reads; the grammar of the schema (algn_iff) and the written direction are proved of all expressions, reading of all valid strings without symbols"
  },
  {
   "property": "C102",
   "status": "partial",
   "theorems": [
    "Xigt.Rng.C102_odin",
    "Xigt.Rng.C102_toolbox",
    "Xigt.Rng.C102_refuted",
    "Xigt.Rng.C102_refuted_key"
   ],
   "note": "false of blocks without an identifier and of keys with other characters than those of identifiers; for input that can be written and read (C76, C93) the theorems say exactly when the result is valid"
  },
  {
   "property": "C103",
   "status": "partial",
   "theorems": [
    "Xigt.Rng.C103_iff",
    "Xigt.Rng.C103_both",
    "Xigt.Rng.C103_refuted",
    "Xigt.Rng.C103_refuted_text"
   ],
   "note": "false: xigt.rnc without extensions allows no tier with a type, and xigt-structure.rnc none without (C103_both), and text alone in a meta is not allowed; C103_iff (for the data of C40) says exactly which corpora are written as documents valid against xigt.rnc"
  },
  {
   "property": "C104",
   "status": "partial",
   "theorems": [
    "Xigt.Rng.C104_odin",
    "Xigt.Rng.C104_refuted"
   ],
   "note": "false with keep_headers; for blocks that can be written and read (C76), C104_odin says exactly when the result is valid"
  },
  {
   "property": "C105",
   "status": "partial",
   "theorems": [
    "Xigt.Rng.C105_toolbox",
    "Xigt.Rng.C105_refuted_pos",
    "Xigt.Rng.C105_refuted_attribute"
   ],
   "note": "false of parts of speech and of the attribute corpus-id, which the default options make and the default schema lacks; C105_toolbox says exactly what is valid of what is imported; of corpora in general, with metadata, see C120"
  },
  {
   "property": "C106",
   "status": "partial",
   "theorems": [
    "Xigt.Files.C106_directory",
    "Xigt.Files.C106_file",
    "Xigt.Files.C106_mismatch",
    "Xigt.Files.C106_refuted",
    "Xigt.Files.C106_refuted_directory"
   ],
   "note": "false when an output file is its own input (the file is emptied before it is read): C106_refuted, C106_refuted_directory; true otherwise"
  },
  {
   "property": "C107",
   "status": "partial",
   "theorems": [
    "Xigt.Files.C107_partial",
    "Xigt.Files.C107_exists",
    "Xigt.Files.C107_refuted"
   ],
   "note": "false when keys contain a slash: they are taken as paths, also out of the output directory and onto the input files; true otherwise. The contents of the output files are those of C49"
  },
  {
   "property": "C108",
   "status": "partial",
   "theorems": [
    "Xigt.Files.C108_partial",
    "Xigt.Files.C108_twice",
    "Xigt.Files.C108_refuted"
   ],
   "note": "that only the file changes and that it has the reordered corpus is proved of all files; that it can be read again is proved of documents as in C109 and false of a default namespace inside a meta; that sorting again leaves it as it is, for keys as in C110"
  },
  {
   "property": "C109",
   "status": "partial",
   "theorems": [
    "Xigt.C109_partial",
    "Xigt.C109_refuted",
    "Xigt.C109_refuted_xml"
   ],
   "note": "false of a default namespace inside a meta, which is written with an empty prefix, and of elements in the namespace of xml, which are written without it; proved of documents in the layout of C42 without these, whose corpus has no type"
  },
  {
   "property": "C11",
   "status": "partial",
   "theorems": [
    "Xigt.C11_refuted",
    "Xigt.C11_partial"
   ],
   "note": "Fails between Item, Meta and MetaChild (an empty Item equals an empty Meta, not conversely); proved for all other pairs of classes."
  },
  {
   "property": "C110",
   "status": "partial",
   "theorems": [
    "Xigt.Srt.C110_partial",
    "Xigt.Srt.C110_deps",
    "Xigt.Srt.C110_refuted"
   ],
   "note": "false of IGT keys that look at tiers, since tiers are sorted after the IGTs; proved for keys that are attributes of the object or of what it is in, or its text, and (C110_deps) for tier dependencies if the tiers have different IDs"
  },
  {
   "property": "C111",
   "status": "partial",
   "theorems": [
    "Xigt.Ltx.C111_partial",
    "Xigt.Files.C111_refuted",
    "Xigt.Files.C111_refuted_par"
   ],
   "note": "false of IDs with line breaks, which get out of their comment, and of texts with empty lines, which end a paragraph inside a group; true if IDs and texts are in one line and there are no substitutions"
  },
  {
   "property": "C112",
   "status": "partial",
   "theorems": [
    "Xigt.Files.C112_partial",
    "Xigt.Files.C112_unopened",
    "Xigt.Files.C112_document",
    "Xigt.Files.C112_refuted"
   ],
   "note": "false of an exception in the middle, which leaves a file that TeX cannot read to its end; C112_partial says what the file is in each case"
  },
  {
   "property": "C113",
   "status": "proved",
   "theorems": [
    "Xigt.Mu.C113_tree",
    "Xigt.Mu.C113",
    "Xigt.Mu.C113_bare",
    "Xigt.Mu.C113_exact",
    "Xigt.Mu.C113_refs",
    "Xigt.Mu.C113_lex",
    "Xigt.Mu.C113_lines"
   ],
   "note": ""
  },
  {
   "property": "C114",
   "status": "partial",
   "theorems": [
    "Xigt.Mu.C114_never",
    "Xigt.Files.C114_refuted"
   ],
   "note": "false: the parser forgets comments and processing instructions, and nothing is ever written with one (C114_never)"
  },
  {
   "property": "C115",
   "status": "proved",
   "theorems": [
    "Xigt.Ord.C115_open",
    "Xigt.Ord.C115",
    "Xigt.Ord.C115_sorted",
    "Xigt.Ord.C115_roundtrip"
   ],
   "note": ""
  },
  {
   "property": "C116",
   "status": "partial",
   "theorems": [
    "Xigt.Ord.C116_partial",
    "Xigt.Ord.C116_same",
    "Xigt.Ord.C116_refuted"
   ],
   "note": "true where the serialiser sorts attributes by their keys (python 3.6 and 3.7); false with later versions, which write them in order of insertion"
  },
  {
   "property": "C117",
   "status": "partial",
   "theorems": [
    "Xigt.Byt.C117_partial",
    "Xigt.Byt.C117_refuted"
   ],
   "note": "Proved for all corpora of C40, all indentations and all encodings (ASCII characters are their own bytes) of which the parser knows the name, provided that the encoding has the characters of the names of attributes, MetaChildren and prefixes. Refuted without that condition: names are written with references, which no parser accepts."
  },
  {
   "property": "C118",
   "status": "partial",
   "theorems": [
    "Xigt.Byt.C118_partial",
    "Xigt.Byt.C118_refuted"
   ],
   "note": "Proved for encodings that UTF-8 contains (UTF-8, US-ASCII). Refuted for ISO 8859-1: loads() decodes all bytes as UTF-8, so that a text may be read as another one without an error."
  },
  {
   "property": "C119",
   "status": "partial",
   "theorems": [
    "Xigt.Cnv.C119_text",
    "Xigt.Cnv.C119_partial",
    "Xigt.Cnv.C119_same",
    "Xigt.Cnv.C119_refuted",
    "Xigt.Cnv.C119_refuted_type"
   ],
   "note": "Proved of documents as in C109 in which only the corpus declares namespaces and no type is empty, also with attributes in namespaces, which JSON alone does not keep (C39). False where an inner element declares a namespace (an element comes out of its namespace) and of empty types."
  },
  {
   "property": "C12",
   "status": "partial",
   "theorems": [
    "Xigt.C12_refuted",
    "Xigt.C12_partial"
   ],
   "note": "Fails for every container class: != is list.__ne__, which compares contents only. Proved for Item, and exactly what != computes for the others."
  },
  {
   "property": "C120",
   "status": "proved",
   "theorems": [
    "Xigt.Rng.C120_iff",
    "Xigt.Rng.C120_tiers",
    "Xigt.Rng.C120_text"
   ],
   "note": "For the corpora that XML keeps (C40). C120_tiers: a note on a language must name its tiers. C120_text: as the type of a note is optional, an untyped note with mere text is allowed as if it were a date, though xigt.rnc does not allow it."
  },
  {
   "property": "C121",
   "status": "partial",
   "theorems": [
    "Xigt.Vld.C121_status",
    "Xigt.Vld.C121_levels",
    "Xigt.Vld.C121_quiet",
    "Xigt.Vld.C121_refuted",
    "Xigt.Vld.C121_partial"
   ],
   "note": "C121_status is exact for all options and files. The claim holds without options, for files that can be read to the end. False with -q (errors do not count), with -v (warnings do), and for files that cannot be parsed (status 0)."
  },
  {
   "property": "C122",
   "status": "partial",
   "theorems": [
    "Xigt.C122_partial",
    "Xigt.C122_cached",
    "Xigt.C122_errors",
    "Xigt.C122_refuted"
   ],
   "note": "Proved where no ID is used twice and IDs are valid, with a list of attributes and, right after refresh_indices(), without. False of an item with the ID of a tier."
  },
  {
   "property": "C123",
   "status": "proved",
   "theorems": [
    "Xigt.C123_span",
    "Xigt.C123_reference",
    "Xigt.between_unique"
   ],
   "note": "What stands between two places is stated by length and characters, without slices."
  },
  {
   "property": "C124",
   "status": "partial",
   "theorems": [
    "Xigt.C124_partial",
    "Xigt.C124_tier",
    "Xigt.C124_refuted",
    "Xigt.C124_refuted_removed"
   ],
   "note": "Proved where no ID is used twice and the item index has the current items only, as in a new igt. False of removed items, which are still found, and of get_aligned_tier without the attribute, which raises NameError."
  },
  {
   "property": "C125",
   "status": "partial",
   "theorems": [
    "Xigt.C125_partial",
    "Xigt.C125_refuted",
    "Xigt.C125_refuted_none"
   ],
   "note": "Proved of assignments of strings, but for the exclusion of segmentation, which only the constructor checks (refuted). Assigning None leaves an attribute that makes the functions of ref.py raise TypeError."
  },
  {
   "property": "C126",
   "status": "partial",
   "theorems": [
    "Xigt.Qry.C126_partial",
    "Xigt.Qry.C126_file",
    "Xigt.Qry.C126_begun",
    "Xigt.Qry.C126_usage",
    "Xigt.Qry.C126_described",
    "Xigt.Qry.basename_spec",
    "Xigt.Qry.C126_refuted"
   ],
   "note": "Proved with an action among the options. False without: instead of a message about the usage there is an AttributeError."
  },
  {
   "property": "C127",
   "status": "partial",
   "theorems": [
    "Xigt.C127_partial",
    "Xigt.C127_text",
    "Xigt.C127_refuted",
    "Xigt.Qry.C127_refuted_query"
   ],
   "note": "repr() raises exactly what value() of an item raises. False of items on a circle of references; one item that cannot be shown ends xigt query --find."
  },
  {
   "property": "C128",
   "status": "partial",
   "theorems": [
    "Xigt.XP.C128_cut",
    "Xigt.XP.C128_partial",
    "Xigt.XP.C128_refuted"
   ],
   "note": "What becomes of every string is proved exactly. False of exclamation marks that are not before an equals sign: they are dropped without an error."
  },
  {
   "property": "C129",
   "status": "partial",
   "theorems": [
    "Xigt.C129_partial",
    "Xigt.C129_none",
    "Xigt.C129_refuted",
    "Xigt.C129_refuted_assigned"
   ],
   "note": "Proved for edits without item assignment in which no object is put into two containers. False of objects that were removed or cleared, which keep what they were in, and of objects assigned to a place, which have None."
  },
  {
   "property": "C13",
   "status": "proved",
   "theorems": [
    "Xigt.C13_ids_of_expression",
    "Xigt.C13_ids_all_strings",
    "Xigt.C13_ids_occur",
    "Xigt.Re.re_match",
    "Xigt.Re.re_findall"
   ],
   "note": ""
  },
  {
   "property": "C130",
   "status": "partial",
   "theorems": [
    "Xigt.Cnv.C130_partial",
    "Xigt.Cnv.C130_refuted"
   ],
   "note": "Proved for corpora that XML keeps (C40), with namespaces on the corpus only and no empty types. The order of \"namespaces\" in JSON is that of a Python set; it is taken as that of the corpus. False of carriage returns."
  },
  {
   "property": "C131",
   "status": "partial",
   "theorems": [
    "Xigt.C131_same",
    "Xigt.C131_partial",
    "Xigt.C131_refuted",
    "Xigt.C131_refuted_taken"
   ],
   "note": "False unless refresh_index() is called after the renaming (the object is found under its old ID only and cannot be removed), and nothing rejects an ID that is taken. Proved with refresh_index(); C131_same says exactly what the assignment does."
  },
  {
   "property": "C132",
   "status": "partial",
   "theorems": [
    "Xigt.C132_partial",
    "Xigt.C132_attribute_partial",
    "Xigt.C132_refuted"
   ],
   "note": "Values and references are proved of all equal IGTs, attributes where the key is in full. False of attributes asked for with a prefix, since == ignores the declarations of namespaces."
  },
  {
   "property": "C133",
   "status": "partial",
   "theorems": [
    "Xigt.C133_xml_partial",
    "Xigt.C133_json_partial",
    "Xigt.C133_refuted_xml",
    "Xigt.C133_refuted_json"
   ],
   "note": "Proved for the corpora of C40 and C38. False of items with an empty text that also have content or segmentation: the text is lost and the value of what they refer to takes its place."
  },
  {
   "property": "C134",
   "status": "partial",
   "theorems": [
    "Xigt.Srt.C134_partial",
    "Xigt.Srt.C134_tiers_partial",
    "Xigt.Srt.C134_refuted"
   ],
   "note": "Proved of IGTs in which no two tiers, and no two items of a tier, have the same ID, and tiers are referred to by name. False of references to a tier by its number, which get() allows."
  },
  {
   "property": "C135",
   "status": "partial",
   "theorems": [
    "Xigt.Vld.C135_partial",
    "Xigt.Vld.C135_circular",
    "Xigt.Vld.C135_refuted"
   ],
   "note": "Proved of items whose reference is made of selections joined by + or , and whose tier refers to a tier that has items; circular references are never passed over. False of references to tiers without items, which the validator takes for no reference."
  },
  {
   "property": "C136",
   "status": "partial",
   "theorems": [
    "Xigt.Tbx.C136_partial",
    "Xigt.Tbx.C136_file",
    "Xigt.Tbx.C136_refuted",
    "Xigt.Tbx.C136_refuted_keys"
   ],
   "note": "Proved for tier IDs that do not end in a digit (as by default) and keys that give different IDs, whatever the fields are; for the file also what C93 asks for. False of a tier a1 beside a tier a with eleven items, and of the keys 7 and igt7."
  },
  {
   "property": "C137",
   "status": "partial",
   "theorems": [
    "Xigt.Odin.C137_partial",
    "Xigt.Odin.C137_file",
    "Xigt.Odin.C137_refuted",
    "Xigt.Odin.C137_refuted_refs"
   ],
   "note": "Proved for blocks with different IDs, or none, and lines without segmentation and alignment; for the file also what C76 asks for. False of blocks with the same ID, and of lines that say something under segmentation."
  },
  {
   "property": "C138",
   "status": "partial",
   "theorems": [
    "Xigt.Vld.C138_equal",
    "Xigt.Vld.C138_xml_partial",
    "Xigt.Vld.C138_run_partial",
    "Xigt.Vld.C138_json_partial",
    "Xigt.Vld.C138_refuted_xml",
    "Xigt.Vld.C138_refuted_json"
   ],
   "note": "Proved of all equal corpora, and of files for the corpora of C40 and C38. False of an item with an empty text of which another selects a part: of the corpus the validator reports this, with the file it fails."
  },
  {
   "property": "C139",
   "status": "partial",
   "theorems": [
    "Xigt.Vld.C139_partial",
    "Xigt.Vld.C139_tiers_partial",
    "Xigt.Vld.C139_passes_partial",
    "Xigt.Vld.C139_refuted"
   ],
   "note": "Proved of IGTs in which no two tiers, and no two items of a tier, have the same ID, and tiers are referred to by name; that what passes still passes needs the latter only. False of references to a tier by its number, which get() allows."
  },
  {
   "property": "C14",
   "status": "proved",
   "theorems": [
    "Xigt.C14_selections_lossless",
    "Xigt.C14_selections_of_expression"
   ],
   "note": ""
  },
  {
   "property": "C140",
   "status": "partial",
   "theorems": [
    "Xigt.Rng.C140_syntax",
    "Xigt.Rng.C140_dependencies",
    "Xigt.Rng.C140_both",
    "Xigt.Rng.C140_typed",
    "Xigt.Rng.C140_refuted"
   ],
   "note": "What the extensions allow is proved exactly, and that what both allow xigt.rnc allows too. False as to blocking: items in such tiers may have content and alignment instead of the references of the extension."
  },
  {
   "property": "C141",
   "status": "partial",
   "theorems": [
    "Xigt.Opt.C141_given",
    "Xigt.Opt.C141_same",
    "Xigt.Opt.C141_again",
    "Xigt.Opt.C141_default",
    "Xigt.Opt.C141_odin",
    "Xigt.Opt.C141_safe",
    "Xigt.Opt.C141_run",
    "Xigt.Opt.C141_partial",
    "Xigt.Opt.C141_refuted"
   ],
   "note": "All proved but that every such configuration can be used: exactly those can that have a marker for each of two aligned interlinear tiers. With only a tier_map there is a KeyError, as the default alignments are kept."
  },
  {
   "property": "C142",
   "status": "partial",
   "theorems": [
    "Xigt.C142_value",
    "Xigt.C142_references",
    "Xigt.C142_descendants",
    "Xigt.C142_ancestors_partial",
    "Xigt.C142_refuted"
   ],
   "note": "Values, references and descendants() are proved for all renamings; ancestors() for tiers whose IDs have more than one character. It is false of others: visited.update(reftier.id) adds the characters of the ID, so a tier named with one of them is taken as visited."
  },
  {
   "property": "C143",
   "status": "partial",
   "theorems": [
    "Xigt.XP.C143_partial",
    "Xigt.XP.C143_alike_partial",
    "Xigt.XP.C143_xml_partial",
    "Xigt.XP.C143_json_partial",
    "Xigt.XP.C143_refuted_order",
    "Xigt.XP.C143_refuted_prefix"
   ],
   "note": "Proved of equal corpora for paths without prefixes and without @*, and of all paths where prefixes stand for the same and attributes are in the same order; so of corpora saved in XML or JSON and loaded again in which only the corpus declares namespaces. False of @* and of prefixes otherwise, as == does not look at either."
  },
  {
   "property": "C144",
   "status": "partial",
   "theorems": [
    "Xigt.Js.C144_value",
    "Xigt.Js.C144_text",
    "Xigt.Js.C144_one",
    "Xigt.Js.C144_members",
    "Xigt.Js.C144_refuted_type",
    "Xigt.Js.C144_refuted_child",
    "Xigt.Js.C144_refuted_null"
   ],
   "note": "Proved exactly, but for the type of a corpus and the ID and type of a MetaChild, which the decoders do not pass on. null is read as a missing member for strings and attributes, and is an error for namespaces and lists. The model has no numbers and booleans."
  },
  {
   "property": "C145",
   "status": "partial",
   "theorems": [
    "Xigt.Srt.C145_sort_partial",
    "Xigt.Srt.C145_xml_partial",
    "Xigt.Srt.C145_refuted_prefix",
    "Xigt.Srt.C145_refuted_order"
   ],
   "note": "Proved of equal corpora for keys without prefixes and without @*; of saved and loaded corpora for all keys, if only the corpus declares namespaces. False of prefixes and of @* otherwise: == looks neither at declarations nor at the order of attributes."
  },
  {
   "property": "C146",
   "status": "proved",
   "theorems": [
    "Xigt.Ltx.C146_latex",
    "Xigt.Ltx.C146_xml",
    "Xigt.Ltx.C146_json"
   ],
   "note": "Proved of all equal corpora; for saved corpora with the conditions of C40 and C38, which say what the formats keep. Substitutions are arbitrary functions, lower() too."
  },
  {
   "property": "C147",
   "status": "partial",
   "theorems": [
    "Xigt.Srt.C147_partial",
    "Xigt.Srt.C147_count_partial",
    "Xigt.Srt.C147_strings_partial",
    "Xigt.Srt.C147_refuted"
   ],
   "note": "Proved of all paths with value() only where tiers are referred to by unique IDs, and with referent() and referrer() only where the IDs of an IGT are unique and no numbers. False otherwise: a tier may be referred to by its place, and of two items with one ID get_any() finds the last."
  },
  {
   "property": "C148",
   "status": "partial",
   "theorems": [
    "Xigt.Part.C148_partial",
    "Xigt.Part.C148_refuted"
   ],
   "note": "Proved of paths into IGTs, also absolute ones, without .. or an absolute path afterwards; a path that begins with // or * needs corpora without metadata. IGTs have namespaces of their own, as those read from files do, and keys have different file names (C49). False otherwise: the metadata of corpora is not written."
  },
  {
   "property": "C149",
   "status": "proved",
   "theorems": [
    "Xigt.Rng.C149_iff",
    "Xigt.Rng.C149_extends",
    "Xigt.Rng.C149_syntax",
    "Xigt.Rng.C149_loose"
   ],
   "note": "What the schema allows is proved exactly, and that it extends the default schema. C149_loose shows what it does not say: an item without children may be a segment of something, so it need not be part of the tree at all."
  },
  {
   "property": "C15",
   "status": "proved",
   "theorems": [
    "Xigt.C15_expand_splits",
    "Xigt.C15_compress_merges",
    "Xigt.C15_expand_idempotent",
    "Xigt.C15_compress_idempotent",
    "Xigt.C15_expand_compress",
    "Xigt.C15_compress_expand",
    "Xigt.C15_fixed_points"
   ],
   "note": ""
  },
  {
   "property": "C150",
   "status": "partial",
   "theorems": [
    "Xigt.Rng.C150_reads_partial",
    "Xigt.Rng.C150_partial",
    "Xigt.Rng.C150_sort_partial",
    "Xigt.Rng.C150_refuted"
   ],
   "note": "Proved of documents whose metadata is as in C100, with text before children, and for rewriting without a default namespace as in C109. Reading and validity afterwards are proved for all seven schemata. False of documents that no schema allows: text where none belongs is dropped, so an invalid document may become valid."
  },
  {
   "property": "C151",
   "status": "partial",
   "theorems": [
    "Xigt.Rng.C151_partial",
    "Xigt.Rng.C151_run_partial",
    "Xigt.Rng.C151_refuted"
   ],
   "note": "Proved of the documents of C150 in which no two siblings have the same identifier, for all seven schemata, in a file system for keys without / (as in C107). The converse is false: what is wrong with a corpus itself is not in the files of the partition."
  },
  {
   "property": "C152",
   "status": "proved",
   "theorems": [
    "Xigt.Cmd.C152_iff",
    "Xigt.Cmd.C152_script",
    "Xigt.Cmd.C152_process",
    "Xigt.Cmd.C152_unknown",
    "Xigt.Cmd.C152_dashes_refuted"
   ],
   "note": "Both directions, for all command lines. -- directly after the name does not reach the script, so that a file whose name begins with - cannot be named that way."
  },
  {
   "property": "C153",
   "status": "proved",
   "theorems": [
    "Xigt.Cmd.C153_sort",
    "Xigt.Cmd.C153_partition",
    "Xigt.Cmd.C153_query",
    "Xigt.Cmd.C153_validate",
    "Xigt.Cmd.C153_formats",
    "Xigt.Cmd.C153_import",
    "Xigt.Cmd.C153_export",
    "Xigt.Cmd.C153_partition_refuted",
    "Xigt.Cmd.C153_query_refuted",
    "Xigt.Cmd.C153_default_key",
    "Xigt.Cmd.C153_partition_dashes_refuted"
   ],
   "note": "Of options written in full; values that stand apart from their option, and files without -- before them, do not begin with -. Abbreviated options and several letters in one argument are modelled but not stated. Files apart from each other are not taken, and of the files of a partition one called -- is lost."
  },
  {
   "property": "C154",
   "status": "proved",
   "theorems": [
    "Xigt.Rng.C154_iff",
    "Xigt.Rng.C154_types",
    "Xigt.Rng.C154_alone",
    "Xigt.Rng.C154_loose"
   ],
   "note": "What the schema allows is proved exactly. C154_loose shows what it does not say: metadata on the language of an IGT is never needed, nor checked since plain metadata is allowed too, and items of dependencies need no dependent."
  },
  {
   "property": "C155",
   "status": "proved",
   "theorems": [
    "Xigt.Cmd.C155_origin",
    "Xigt.Cmd.C155_sort",
    "Xigt.Cmd.C155_output",
    "Xigt.Cmd.C155_partition",
    "Xigt.Cmd.C155_word"
   ],
   "note": "For all command lines, without any condition on how they are written. That the value of an option stands directly after it is not stated here, but in C153 for options written in full."
  },
  {
   "property": "C156",
   "status": "partial",
   "theorems": [
    "Xigt.Files.C156_partial",
    "Xigt.Files.C156_reads",
    "Xigt.Files.C156_sort",
    "Xigt.Files.C156_refuted"
   ],
   "note": "Proved of the whole program for all command lines, but of partitions only for keys without / (C107): with a key like ../in a partition replaces its own input. Suffixes for ODIN are plain (C106); of the library for itsdb it is assumed that it writes only below the output. What the shell does with standard output is not modelled."
  },
  {
   "property": "C157",
   "status": "proved",
   "theorems": [
    "Xigt.Files.C157_sort",
    "Xigt.Files.C157_partition",
    "Xigt.Files.C157_query",
    "Xigt.Files.C157_validate",
    "Xigt.Files.C157_import",
    "Xigt.Files.C157_export",
    "Xigt.Files.C157_sorted",
    "Xigt.Files.C157_twice",
    "Xigt.Files.C157_partitioned",
    "Xigt.Files.C157_imported",
    "Xigt.Files.C157_exported"
   ],
   "note": "The first six are equations: the program is the script with what is said. The others put these together with C107, C108, C106 and C112 and have their conditions: documents as in C109 for sorting, keys without / for partitions, another output than the input for import and export, and a configuration that can be read. The work of the importers and of itsdb is a parameter here (C86 and others are about it)."
  },
  {
   "property": "C158",
   "status": "proved",
   "theorems": [
    "Xigt.Js.C158_exact",
    "Xigt.Js.C158_error",
    "Xigt.Js.C158_one",
    "Xigt.Js.C158_written",
    "Xigt.Js.C158_corpus",
    "Xigt.Js.C158_alike",
    "Xigt.Js.C158_never"
   ],
   "note": "The reader is a model of the module json, which is not in the repository, written character by character. Python also reads numbers, true, false, NaN and halves of surrogate pairs; the model rejects texts with these, so nothing is claimed of them. C158_corpus is C144 for texts."
  },
  {
   "property": "C159",
   "status": "partial",
   "theorems": [
    "Xigt.Xs.C159_names",
    "Xigt.Xs.C159_each",
    "Xigt.Xs.C159_partial",
    "Xigt.Xs.C159_never",
    "Xigt.Xs.C159_one",
    "Xigt.Xs.C159_refuted"
   ],
   "note": "Which texts are read, how names are resolved and what each decoder makes of an element are proved for all texts. What is loaded is that only of documents with the layout of C42 (metadata before IGTs, and no other elements of these names): metadata after IGTs is not loaded (C159_refuted). The parser is a model of lxml; &#13; in text is read as a newline there."
  },
  {
   "property": "C16",
   "status": "proved",
   "theorems": [
    "Xigt.C16_spans"
   ],
   "note": ""
  },
  {
   "property": "C160",
   "status": "partial",
   "theorems": [
    "Xigt.Vld.C160_passes",
    "Xigt.Vld.C160_partial",
    "Xigt.Vld.C160_back_partial",
    "Xigt.Vld.C160_files_partial",
    "Xigt.Vld.C160_status",
    "Xigt.Vld.C160_refuted",
    "Xigt.Vld.C160_refuted_back"
   ],
   "note": "That what passes still passes is proved of problems above the level of information; new corpora have no ID, which is information. The reports are the same, and the converse holds, if keys have different file names (C49) and no two IGTs of a file have the same ID: these may get into different files, and the error is gone. In the file system, for documents as in C109 and keys without /."
  },
  {
   "property": "C161",
   "status": "proved",
   "theorems": [
    "Xigt.Vld.C161_file",
    "Xigt.Vld.C161_append",
    "Xigt.Vld.C161_status",
    "Xigt.Vld.C161_reads"
   ],
   "note": "The first two say what is printed for any list of files, also before an exception. Lines are compared as a list of texts: an ID with a line break in it could look like several lines. C161_reads is of runs that go to their ends, without colours (with colours see C99). The messages are in the log (C87, C88), not on the standard output."
  },
  {
   "property": "C162",
   "status": "partial",
   "theorems": [
    "Xigt.Qry.C162_equal_partial",
    "Xigt.Qry.C162_xml_partial",
    "Xigt.Qry.C162_sort_partial",
    "Xigt.Qry.C162_partition_partial",
    "Xigt.Qry.C162_refuted_tally",
    "Xigt.Qry.C162_refuted_unique"
   ],
   "note": "Of the matches that find shows only strings and None: the text of an object contains its address. Equal corpora: paths without prefixes and @* (C143); loaded ones: as in C143. Sorting: the output is that of runs that come to their end, for find, count and unique (the groups of a tally change, C162_refuted_tally), with paths as in C147. Partitions: paths and files as in C148; numbers of different results do not add up (C162_refuted_unique)."
  },
  {
   "property": "C163",
   "status": "partial",
   "theorems": [
    "Xigt.Tsdb.C163_cell",
    "Xigt.Tsdb.C163_partial",
    "Xigt.Tsdb.C163_words",
    "Xigt.Tsdb.C163_equal",
    "Xigt.Tsdb.C163_refuted",
    "Xigt.Tsdb.C163_refuted_empty",
    "Xigt.Tsdb.C163_refuted_odin"
   ],
   "note": "C163_cell says what is in the cell of every IGT, and that all others raise an exception. Texts are proved of IGTs without phrases: with phrases the cell is always an Item, not its text (C163_refuted), and an empty tier of phrases is an IndexError (C163_refuted_empty). What the ODIN importer makes always has an empty input (C163_refuted_odin). Writing the profile is done by delphin."
  },
  {
   "property": "C164",
   "status": "partial",
   "theorems": [
    "Xigt.Ltx.C164_igts",
    "Xigt.Ltx.C164_tiers_partial",
    "Xigt.Ltx.C164_deps_partial",
    "Xigt.Ltx.C164_partial",
    "Xigt.Ltx.C164_partition_partial",
    "Xigt.Tsdb.C164_rows",
    "Xigt.Ltx.C164_refuted",
    "Xigt.Tsdb.C164_refuted_numbers"
   ],
   "note": "Proved without conditions of sorted IGTs. Sorted tiers: in IGTs as in C134 (unique IDs, and tiers referred to by name) if words, morphemes, glosses and translations keep their order; else the sorted corpus may not be exported at all (C164_refuted). Partitions: if keys have different file names (C49). The numbers of rows change with the order (C164_refuted_numbers), so they do not identify an IGT."
  },
  {
   "property": "C165",
   "status": "partial",
   "theorems": [
    "Xigt.Tsdb.C165_profile",
    "Xigt.Tsdb.C165_rows",
    "Xigt.Tsdb.C165_nothing",
    "Xigt.Tsdb.C165_named",
    "Xigt.Tsdb.C165_only",
    "Xigt.Tsdb.C165_command",
    "Xigt.Tsdb.C165_refuted"
   ],
   "note": "All but the last sentence is proved; without a Relations file the status is 0 too, and nothing was exported (C165_refuted): the error is only in the log. Configurations are as the code expects them (numbers are integers, cells pairs of texts), except in C165_nothing, C165_named and C165_only. The library delphin and eval are parameters; C165_only is what C156 assumes of this exporter."
  },
  {
   "property": "C166",
   "status": "proved",
   "theorems": [
    "Xigt.Files.C166_same",
    "Xigt.Files.C166_partition",
    "Xigt.Files.C166_quiet",
    "Xigt.Files.C166_more",
    "Xigt.Files.C166_sort",
    "Xigt.Files.C166_sort_lines",
    "Xigt.Files.C166_command_sort",
    "Xigt.Files.C166_command_partition"
   ],
   "note": "The module logging is read as: a message is a line LEVEL:root:message on standard error if its level is at least that of basicConfig. The traceback of an exception that is not caught is not modelled, nor are the logs of the other scripts, but for validate (C52, C121)."
  },
  {
   "property": "C167",
   "status": "partial",
   "theorems": [
    "Xigt.Tbx.C167_tiers",
    "Xigt.Tbx.C167_record",
    "Xigt.Tbx.C167_append",
    "Xigt.Tbx.C167_all",
    "Xigt.Tbx.C167_stops",
    "Xigt.Tbx.C167_refuted_twice",
    "Xigt.Tbx.C167_refuted_short"
   ],
   "note": "All but the last sentence is proved. It is false (C167_refuted_twice, C167_refuted_short): with a marker twice in a record, or a line with fewer cells than the one it is aligned with has tokens, the exception is not handled and nothing is imported; C167_stops says so of every record that does not fit, unless it is unusable in the sense of C92, the only ones that can be left out. What the module toolbox makes of a file is a parameter: whether it ever gives fewer cells is not in this repository."
  },
  {
   "property": "C168",
   "status": "partial",
   "theorems": [
    "Xigt.Tbx.C168_same",
    "Xigt.Tbx.C168_accounts",
    "Xigt.Tbx.C168_stopped",
    "Xigt.Tbx.C168_count",
    "Xigt.Tbx.C168_quiet",
    "Xigt.Tbx.C168_refuted"
   ],
   "note": "All proved but that the record that stops the import is named: nothing in the log tells which it was (C168_refuted). Of each message only its first line is modelled; the second is the text of the exception. Records with the same key cannot be told apart in the log."
  },
  {
   "property": "C169",
   "status": "partial",
   "theorems": [
    "Xigt.C169_same",
    "Xigt.C169_last",
    "Xigt.C169_new",
    "Xigt.C169_again",
    "Xigt.C169_partial",
    "Xigt.C169_refuted_none",
    "Xigt.C169_refuted_equal",
    "Xigt.C169_refuted_removed"
   ],
   "note": "All but the last sentence but one is proved. It is false: two different items without IDs give a warning of the item \"None\" (C169_refuted_none), two items with the same ID that are equal give none (C169_refuted_equal), and an item that was taken out is still warned of when another gets its ID, since refreshing does not clear the index (C169_refuted_removed). Which warnings are shown depends on the filters of the module warnings, which are not modelled."
  },
  {
   "property": "C17",
   "status": "proved",
   "theorems": [
    "Xigt.C17_resolve",
    "Xigt.C17_resolve_ok",
    "Xigt.pySlice_between",
    "Xigt.py_strip",
    "Xigt.py_int"
   ],
   "note": ""
  },
  {
   "property": "C170",
   "status": "partial",
   "theorems": [
    "Xigt.Tbx.C170_partial",
    "Xigt.Tbx.C170_unwarned",
    "Xigt.Tbx.C170_file",
    "Xigt.Tbx.C170_refuted"
   ],
   "note": "Proved of tier IDs that do not end in a digit, among them the defaults. If a tier has the ID of another followed by a digit, two items can have the same ID; one of them is not found, and there is a warning (C170_refuted). Warnings and files: of records as in C93 (legal characters, tokens that are not empty)."
  },
  {
   "property": "C171",
   "status": "partial",
   "theorems": [
    "Xigt.Odin.C171_partial",
    "Xigt.Odin.C171_only",
    "Xigt.Odin.C171_unwarned",
    "Xigt.Odin.C171_file",
    "Xigt.Odin.C171_refuted"
   ],
   "note": "Proved of blocks with different IDs; of blocks with the same ID only the lines of the first are found (C171_refuted). Warnings and files: of blocks as in C76 (Writable). The attributes are those of lines whose keys are different, as in every dictionary of python."
  },
  {
   "property": "C172",
   "status": "partial",
   "theorems": [
    "Xigt.Tbx.C172_same",
    "Xigt.Tbx.C172_record",
    "Xigt.Tbx.C172_stopping",
    "Xigt.Tbx.C172_partial",
    "Xigt.Tbx.C172_stopped",
    "Xigt.Tbx.C172_count",
    "Xigt.Tbx.C172_named",
    "Xigt.Tbx.C172_refuted_second",
    "Xigt.Tbx.C172_refuted_stopped",
    "Xigt.Tbx.C172_refuted_unnamed"
   ],
   "note": "Proved: of each record exactly the first warning is passed on, with the identifier if the toolbox module issued it. False are: that all are passed on (C172_refuted_second), that those of the record that stops the import are (C172_refuted_stopped), and that those of the Igt come with the identifier (C172_refuted_unnamed). With tier IDs that do not end in a digit and records as in C93 all warnings are of the toolbox module and so have the identifier (C172_named). What the toolbox module warns of is a parameter; which warnings are shown depends on the filters of the module warnings, which are not modelled."
  },
  {
   "property": "C173",
   "status": "partial",
   "theorems": [
    "Xigt.Mdt.C173_write",
    "Xigt.Mdt.C173_self",
    "Xigt.Mdt.C173_new",
    "Xigt.Mdt.C173_string",
    "Xigt.Mdt.C173_both",
    "Xigt.Mdt.C173_refuted_string",
    "Xigt.Mdt.C173_refuted_empty"
   ],
   "note": "All proved but that a string is put in an untyped Meta, which is so only when a Metadata is made. A string that is assigned to text is an error, and what the Metadata contained is lost (C173_refuted_string); an empty string empties it without an error (C173_refuted_empty). If a list cannot be assigned, the Metadata contains what comes before the first object that cannot be taken (C173_write). If the ID is not accepted there is a ValueError before all of this."
  },
  {
   "property": "C174",
   "status": "partial",
   "theorems": [
    "Xigt.Tbx.C174_partial",
    "Xigt.Tbx.C174_rows",
    "Xigt.Tbx.C174_file",
    "Xigt.Tbx.C174_refuted"
   ],
   "note": "All proved but that i-input is a string. If a tier of phrases is made, which is so by default, it is not a string but an Item, whose text is this string (C174_refuted, as in C163); it is a string if no phrases are made (CellOf.text). Options: one tier has the type words, and phrases are only those made of the words, as by default (defaults_words). Through a file (C174_file): of records as in C93. What becomes of an Item when the third-party module writes it is not modelled."
  },
  {
   "property": "C175",
   "status": "partial",
   "theorems": [
    "Xigt.C175_write",
    "Xigt.C175_full",
    "Xigt.C175_partial",
    "Xigt.C175_refuted"
   ],
   "note": "Proved in full mode, and in every mode once the corpus was read completely. Before that it is false in incremental and transient mode, of all sources and lists without common IDs: what is read first is what the source has, and read again it is the list that was assigned and then, in incremental mode, all of the source (C175_refuted)."
  },
  {
   "property": "C176",
   "status": "partial",
   "theorems": [
    "Xigt.C176_add",
    "Xigt.C176_set",
    "Xigt.C176_clear",
    "Xigt.C176_partial",
    "Xigt.C176_refuted"
   ],
   "note": "Proved for assigning (C176_set) and clearing (C176_clear). Of adding and removing: proved for objects with IDs, and for objects without that no object before them in the container equals (for adding: no object in it). Another object without an ID that equals it and comes before it is removed in its place, and inserting the object again has it twice (C176_refuted). Histories are those of C01, with the exceptions named there. The parent of a removed object stays what it was; see C129."
  },
  {
   "property": "C18",
   "status": "proved",
   "theorems": [
    "Xigt.C18_expand_compress_resolve"
   ],
   "note": ""
  },
  {
   "property": "C19",
   "status": "proved",
   "theorems": [
    "Xigt.C19_dangling",
    "Xigt.C19_no_partial_result"
   ],
   "note": ""
  },
  {
   "property": "C20",
   "status": "proved",
   "theorems": [
    "Xigt.C20_value",
    "Xigt.C20_priority"
   ],
   "note": "value() equals the value given by an inductive specification over the data (Val), for all igts; the priority rule also without context"
  },
  {
   "property": "C21",
   "status": "proved",
   "theorems": [
    "Xigt.C21_acyclic",
    "Xigt.C21_cyclic",
    "Xigt.C21_iff"
   ],
   "note": "the stack limit is a parameter; acyclic: at most #items+1 frames and a result independent of the limit; cyclic: exhausts every limit if references are resolvable, otherwise never a value"
  },
  {
   "property": "C22",
   "status": "proved",
   "theorems": [
    "Xigt.C22_errors",
    "Xigt.C22_exact"
   ],
   "note": "exact error conditions; expressions are well-formed with single delimiters"
  },
  {
   "property": "C23",
   "status": "proved",
   "theorems": [
    "Xigt.C23_inverse"
   ],
   "note": "for igts in which no ID is used twice and the item index is current (both kept by the containers and refresh_indices); no repeated reference attributes"
  },
  {
   "property": "C24",
   "status": "partial",
   "theorems": [
    "Xigt.C24_partial",
    "Xigt.C24_refuted_shared_id",
    "Xigt.C24_refuted_unknown_id",
    "Xigt.C24_refuted_get_item"
   ],
   "note": "fails for unknown IDs and when an ID is shared between tiers and items or items of two tiers; proved otherwise, and the inverse law of the cached maps always"
  },
  {
   "property": "C25",
   "status": "partial",
   "theorems": [
    "Xigt.C25_partial",
    "Xigt.C25_refuted"
   ],
   "note": "refresh_indices never clears the item index: removed items are still found"
  },
  {
   "property": "C26",
   "status": "partial",
   "theorems": [
    "Xigt.C26_iff",
    "Xigt.C26_bound",
    "Xigt.C26_partial",
    "Xigt.C26_partial_acyclic",
    "Xigt.C26_diverges",
    "Xigt.C26_refuted"
   ],
   "note": "false of cycles that avoid the start tier with IDs of two or more characters; C26_iff says exactly when it never ends, C26_bound that otherwise it ends after at most 2·#tiers+3 steps"
  },
  {
   "property": "C27",
   "status": "proved",
   "theorems": [
    "Xigt.C27_steps",
    "Xigt.C27_end",
    "Xigt.C27_raised"
   ],
   "note": ""
  },
  {
   "property": "C28",
   "status": "proved",
   "theorems": [
    "Xigt.C28_terminates"
   ],
   "note": "reference attributes without repetition; a start tier without ID raises at once"
  },
  {
   "property": "C29",
   "status": "partial",
   "theorems": [
    "Xigt.C29_sound",
    "Xigt.C29_partial",
    "Xigt.C29_refuted"
   ],
   "note": "sound always; complete except for tiers without ID, which are never reached"
  },
  {
   "property": "C30",
   "status": "partial",
   "theorems": [
    "Xigt.C30_partial",
    "Xigt.C30_refuted"
   ],
   "note": "fails for tiers without ID, which share one index entry; proved, with idempotence, when all tiers have IDs"
  },
  {
   "property": "C31",
   "status": "partial",
   "theorems": [
    "Xigt.C31_partial",
    "Xigt.C31_diverges",
    "Xigt.C31_refuted"
   ],
   "note": "never ends on circular references; ends on every igt without them"
  },
  {
   "property": "C32",
   "status": "proved",
   "theorems": [
    "Xigt.C32_inherit",
    "Xigt.C32_no_inherit"
   ],
   "note": "objects with their parents are lists; also what prefixed keys mean and when they raise"
  },
  {
   "property": "C33",
   "status": "partial",
   "theorems": [
    "Xigt.C33_never_inherits",
    "Xigt.C33_partial",
    "Xigt.C33_refuted",
    "Xigt.py_splitOnce"
   ],
   "note": "the key is qualified again on every ancestor, so with namespace= nothing is ever inherited; proved for own attributes"
  },
  {
   "property": "C34",
   "status": "proved",
   "theorems": [
    "Xigt.C34_nsmap"
   ],
   "note": ""
  },
  {
   "property": "C35",
   "status": "proved",
   "theorems": [
    "Xigt.C35_get_meta"
   ],
   "note": ""
  },
  {
   "property": "C36",
   "status": "partial",
   "theorems": [
    "Xigt.C36_partial",
    "Xigt.Complete.functional",
    "Xigt.C36_refuted",
    "Xigt.C36_refuted_absent"
   ],
   "note": "fails for sources with a repeated ID (accepted only in transient mode) and without source; proved for all other sources"
  },
  {
   "property": "C37",
   "status": "partial",
   "theorems": [
    "Xigt.C37_partial_incremental",
    "Xigt.C37_partial_transient",
    "Xigt.C37_partial_complete",
    "Xigt.C37_refuted"
   ],
   "note": "fails if the source is a list, as in JSON decoding: an iteration after an abandoned one begins anew; proved for iterators and all interleavings of iterations, and for lists if the first iteration is complete"
  },
  {
   "property": "C38",
   "status": "partial",
   "theorems": [
    "Xigt.C38_partial",
    "Xigt.C38_refuted",
    "Xigt.C38_refuted_text",
    "Xigt.C38_refuted_raises"
   ],
   "note": "false for corpora with a type, items with empty text, attribute names with an unmatched brace and attributes in declared namespaces (C39); proved for all corpora without such data; between objects and JSON values; for the text see C91"
  },
  {
   "property": "C39",
   "status": "partial",
   "theorems": [
    "Xigt.C39_never_corpus",
    "Xigt.C39_never_item",
    "Xigt.C39_refuted",
    "Xigt.C39_partial"
   ],
   "note": "false for every attribute in a declared namespace; proved for undeclared namespaces"
  },
  {
   "property": "C40",
   "status": "partial",
   "theorems": [
    "Xigt.C40_partial",
    "Xigt.C42_refuted_igt",
    "Xigt.C40_refuted",
    "Xigt.C40_refuted_text",
    "Xigt.C40_refuted_ns",
    "Xigt.C40_refuted_cr",
    "Xigt.C40_refuted_key",
    "Xigt.C40_refuted_known"
   ],
   "note": "Proved, for every indentation and every chunking of the input, for corpora that satisfy XmlKept and NamesOK. False in general: corpus type becomes an attribute, empty item text and line ends are lost, tiers in a namespace are dropped, attributes in undeclared namespaces raise KeyError."
  },
  {
   "property": "C41",
   "status": "partial",
   "theorems": [
    "Xigt.C41_partial",
    "Xigt.C41_refuted"
   ],
   "note": "Proved for corpora without namespace of their own and without MetaChild called igt or xigt-corpus (unless in a declared namespace), whose unindented document can be parsed. False when a text is blank for str.strip() but no XML (control characters)."
  },
  {
   "property": "C42",
   "status": "partial",
   "theorems": [
    "Xigt.C42_partial",
    "Xigt.C42_refuted",
    "Xigt.C42_refuted_igt"
   ],
   "note": "Proved for every document of the layout (Layout: metadata then igts, no element inside called igt or xigt-corpus): opening, loading and the IGTs in every mode are independent of chunking and equal to decoding the whole tree. False for documents the writer makes when a MetaChild is called xigt-corpus or igt."
  },
  {
   "property": "C43",
   "status": "proved",
   "theorems": [
    "Xigt.XP.C43_find_first",
    "Xigt.XP.C43_find_raises"
   ],
   "note": ""
  },
  {
   "property": "C44",
   "status": "partial",
   "theorems": [
    "Xigt.XP.C44_partial",
    "Xigt.XP.C44_desc",
    "Xigt.XP.C44_refuted"
   ],
   "note": "false when A is of the form (...): what follows the closing bracket is ignored; proved for all other paths of the grammar PPath.Ok, every axis"
  },
  {
   "property": "C45",
   "status": "partial",
   "theorems": [
    "Xigt.XP.C45_partial",
    "Xigt.XP.C45_root",
    "Xigt.XP.C45_refuted",
    "Xigt.XP.C45_corpus_refuted"
   ],
   "note": "false for names with a prefix (the prefix is forgotten below the first object) and for the corpus itself; proved for all other names"
  },
  {
   "property": "C46",
   "status": "partial",
   "theorems": [
    "Xigt.XP.C46_eq_partial",
    "Xigt.XP.C46_ne_partial",
    "Xigt.XP.C46_exists_raises",
    "Xigt.XP.C46_refuted",
    "Xigt.XP.C46_nested_refuted",
    "Xigt.py_stripChars"
   ],
   "note": "A[P] raises TypeError as soon as A finds something (proved), predicates within predicates do not parse; [P=\"v\"] and [P!=\"v\"] proved for paths P without predicates"
  },
  {
   "property": "C47",
   "status": "partial",
   "theorems": [
    "Xigt.XP.C47_partial",
    "Xigt.XP.C47_step_partial",
    "Xigt.XP.C47_refuted"
   ],
   "note": "false for alternatives within alternatives after a first step: XigtPathError if that step finds nothing; proved otherwise"
  },
  {
   "property": "C48",
   "status": "partial",
   "theorems": [
    "Xigt.XP.C48_child_partial",
    "Xigt.XP.C48_star",
    "Xigt.XP.C48_prefixed_partial",
    "Xigt.XP.C48_attr_partial",
    "Xigt.XP.C48_attr_prefixed_partial",
    "Xigt.XP.C48_member",
    "Xigt.XP.C48_refuted",
    "Xigt.XP.C48_dot_refuted"
   ],
   "note": "false for names that begin with text, value, referent or referrer or contain a full stop; proved for PlainName"
  },
  {
   "property": "C49",
   "status": "partial",
   "theorems": [
    "Xigt.Part.C49_partial",
    "Xigt.Part.C49_names",
    "Xigt.Part.C49_succeeds",
    "Xigt.Part.C49_refuted",
    "Xigt.Part.C49_refuted_ids"
   ],
   "note": "false when two keys have the same file name (a:b and a-b, or the default key): the later file overwrites the earlier; raises XigtError when IGTs of one key share an ID; proved otherwise, for all files, key paths and orders"
  },
  {
   "property": "C50",
   "status": "partial",
   "theorems": [
    "Xigt.Srt.C50_partial",
    "Xigt.Srt.C50_succeeds",
    "Xigt.Srt.C50_total",
    "Xigt.Srt.C50_refuted"
   ],
   "note": "the order holds whenever there is no TypeError; TypeError occurs only with several keys, when two objects have a different number of numerals in a key before the last (C50_refuted)"
  },
  {
   "property": "C51",
   "status": "partial",
   "theorems": [
    "Xigt.Qry.C51_tally_partial",
    "Xigt.Qry.C51_tally_succeeds",
    "Xigt.Qry.C51_unique_partial",
    "Xigt.Qry.C51_unique_fails",
    "Xigt.Qry.C51_count",
    "Xigt.Qry.C51_tally_count",
    "Xigt.Qry.C51_refuted"
   ],
   "note": "false for matches (unique) and groups (tally) containing objects: these are unhashable and the script fails with TypeError; proved otherwise"
  },
  {
   "property": "C52",
   "status": "proved",
   "theorems": [
    "Xigt.Vld.C52_run",
    "Xigt.Vld.C52_filter",
    "Xigt.Vld.C52_errors",
    "Xigt.Vld.C52_unreadable"
   ],
   "note": "a file that cannot be parsed from the start is passed over, so it does not make the run fail (C52_unreadable)"
  },
  {
   "property": "C53",
   "status": "partial",
   "theorems": [
    "Xigt.Vld.C53_partial",
    "Xigt.Vld.C53_refuted"
   ],
   "note": "false for spans: only items selected twice as a whole are noticed (proved)"
  },
  {
   "property": "C54",
   "status": "partial",
   "theorems": [
    "Xigt.Vld.C54_partial",
    "Xigt.Vld.C54_refuted",
    "Xigt.Vld.C54_refuted_empty"
   ],
   "note": "proved for all corpora whose tier references are IDs of non-empty tiers; numeric tier references are taken as positions and references into empty tiers are not checked (refuted)"
  },
  {
   "property": "C55",
   "status": "proved",
   "theorems": [
    "Xigt.Tbx.C55_words",
    "Xigt.Tbx.C55_tier"
   ],
   "note": "for the default options and any others in which words are aligned with the phrase tier"
  },
  {
   "property": "C56",
   "status": "partial",
   "theorems": [
    "Xigt.Tbx.C56_partial",
    "Xigt.Tbx.C56_in_word",
    "Xigt.Tbx.C56_precise",
    "Xigt.Tbx.C56_refuted"
   ],
   "note": "false when morphemes are not found in order: begin > end, and a sole morpheme longer than its word ends beyond it; proved bounds that always hold and exact spans otherwise"
  },
  {
   "property": "C57",
   "status": "partial",
   "theorems": [
    "Xigt.Tbx.C57_partial",
    "Xigt.Tbx.utf8_compat",
    "Xigt.Tbx.latin1_compat",
    "Xigt.Tbx.C57_refuted"
   ],
   "note": "proved for every encoding that agrees with ASCII on white space and takes a byte per character or more, shown for UTF-8 and ISO 8859-1; false for UTF-16"
  },
  {
   "property": "C58",
   "status": "partial",
   "theorems": [
    "Xigt.Odin.C58_partial",
    "Xigt.Odin.C58_idempotent",
    "Xigt.Odin.C58_refuted"
   ],
   "note": "false for every character outside the BMP: it is legal but replaced; proved for all others, with a legal character as replacement"
  },
  {
   "property": "C59",
   "status": "proved",
   "theorems": [
    "Xigt.Ltx.C59_charwise",
    "Xigt.Ltx.C59_injective"
   ],
   "note": ""
  },
  {
   "property": "C60",
   "status": "partial",
   "theorems": [
    "Xigt.Ltx.C60_partial",
    "Xigt.Ltx.C60_kept",
    "Xigt.Ltx.C60_refuted",
    "Xigt.Ltx.C60_refuted_order",
    "Xigt.Ltx.C60_refuted_rows",
    "Xigt.Ltx.C60_refuted_range",
    "Xigt.Ltx.C60_refuted_empty"
   ],
   "note": "proved for tiers with a non-empty first tier, IDs on all items and references to the previous tier in order; false otherwise: items that are not aligned are an exception or out of order or make a column too long"
  },
  {
   "property": "C61",
   "status": "partial",
   "theorems": [
    "Xigt.Tsdb.C61_numbers",
    "Xigt.Tsdb.C61_partial",
    "Xigt.Tsdb.C61_last",
    "Xigt.Tsdb.C61_refuted",
    "Xigt.Tsdb.C61_refuted_skip"
   ],
   "note": "numbers proved for a positive skip; false for cells: all cells are computed by the last expression (a variable shared by closures), proved for configurations with one expression"
  },
  {
   "property": "C62",
   "status": "partial",
   "theorems": [
    "Xigt.C62_partial",
    "Xigt.C62_partial_no_namespace",
    "Xigt.C62_refuted"
   ],
   "note": "fails on the metadata list of an object, which has no nsmap (AttributeError); proved for all other containers, and there for all criteria without namespace; members with string values"
  },
  {
   "property": "C63",
   "status": "proved",
   "theorems": [
    "Xigt.C63_constructor"
   ],
   "note": ""
  },
  {
   "property": "C64",
   "status": "partial",
   "theorems": [
    "Xigt.C64_partial",
    "Xigt.C64_refuted"
   ],
   "note": "fails for numeric strings (IndexError); proved for every string accepted as ID"
  },
  {
   "property": "C65",
   "status": "partial",
   "theorems": [
    "Xigt.C65_partial",
    "Xigt.C65_refuted"
   ],
   "note": "visited.update(tier.id) adds the characters of the ID; proved when no tier met has a one-character ID"
  },
  {
   "property": "C66",
   "status": "partial",
   "theorems": [
    "Xigt.C66_once",
    "Xigt.C66_sound",
    "Xigt.C66_partial",
    "Xigt.C66_refuted"
   ],
   "note": "a tier reached twice is followed only the first time; where every tier is reached once, exactly the items that refer directly or indirectly are listed (C66_once); that no others are listed holds always (C66_sound)"
  },
  {
   "property": "C67",
   "status": "partial",
   "theorems": [
    "Xigt.C67_partial",
    "Xigt.C67_refuted"
   ],
   "note": "false where an inner object declares a namespace again; proved where only the corpus declares namespaces"
  },
  {
   "property": "C68",
   "status": "proved",
   "theorems": [
    "Xigt.Srt.C68_reorders"
   ],
   "note": ""
  },
  {
   "property": "C69",
   "status": "proved",
   "theorems": [
    "Xigt.Vld.C69_spans"
   ],
   "note": ""
  },
  {
   "property": "C70",
   "status": "proved",
   "theorems": [
    "Xigt.Vld.C70_finishes",
    "Xigt.Vld.C70_failures"
   ],
   "note": "C70_failures: other corpora with which it stops"
  },
  {
   "property": "C71",
   "status": "proved",
   "theorems": [
    "Xigt.Tbx.C71_spell",
    "Xigt.Tbx.C71_morphemes",
    "Xigt.Tbx.C71_hyphens_refuted"
   ],
   "note": "C71_hyphens_refuted: the example of the documentation, in which a hyphen of the word is no part of any morpheme, is not imported as described"
  },
  {
   "property": "C72",
   "status": "proved",
   "theorems": [
    "Xigt.Tbx.C72_tokens",
    "Xigt.Tbx.C72_ids_distinct"
   ],
   "note": ""
  },
  {
   "property": "C73",
   "status": "partial",
   "theorems": [
    "Xigt.Tbx.C73_partial",
    "Xigt.Tbx.C73_refuted",
    "Xigt.Tbx.C73_collision"
   ],
   "note": "false for keys beginning with a letter outside ASCII (ValueError) and for keys such as 1 and igt1 (same ID); proved for the others"
  },
  {
   "property": "C74",
   "status": "proved",
   "theorems": [
    "Xigt.Tbx.C74_alignment",
    "Xigt.py_str"
   ],
   "note": ""
  },
  {
   "property": "C75",
   "status": "proved",
   "theorems": [
    "Xigt.Odin.C75_complete",
    "Xigt.Odin.C75_incomplete",
    "Xigt.Odin.C75_all"
   ],
   "note": ""
  },
  {
   "property": "C76",
   "status": "partial",
   "theorems": [
    "Xigt.Odin.C76_partial",
    "Xigt.Odin.C76_refuted",
    "Xigt.Odin.C76_refuted_header",
    "Xigt.Odin.C76_refuted_empty",
    "Xigt.Odin.C76_refuted_language"
   ],
   "note": "only the contents of lines are cleaned: control characters in other fields make the file unreadable; empty contents and unknown languages are not the same after reading; proved for all other blocks"
  },
  {
   "property": "C77",
   "status": "partial",
   "theorems": [
    "Xigt.Ltx.C77_partial",
    "Xigt.Ltx.C77_refuted",
    "Xigt.Ltx.C77_refuted_space",
    "Xigt.Ltx.C77_empty"
   ],
   "note": "false when a letter or a space follows a character that is written as a control word; proved for all other strings"
  },
  {
   "property": "C78",
   "status": "partial",
   "theorems": [
    "Xigt.Ltx.C78_partial",
    "Xigt.Ltx.C78_refuted"
   ],
   "note": "proved as C60; false of references in another order"
  },
  {
   "property": "C79",
   "status": "partial",
   "theorems": [
    "Xigt.Ltx.C79_any",
    "Xigt.Ltx.C79_partial",
    "Xigt.Ltx.C79_comment",
    "Xigt.Ltx.reads_unique",
    "Xigt.Ltx.C79_refuted",
    "Xigt.Ltx.C79_refuted_empty",
    "Xigt.py_join"
   ],
   "note": "For a configuration without substitutions. C79_any: for every IGT that is exported, with each item exactly once. C79_partial: tiers as in C60 are exported, with their items in order. False of items that are not aligned (exception) and of items without content (shown as braces)."
  },
  {
   "property": "C80",
   "status": "partial",
   "theorems": [
    "Xigt.C80_partial",
    "Xigt.C80_iadd",
    "Xigt.C80_refuted_self",
    "Xigt.C80_refuted_iadd"
   ],
   "note": "false of a container assigned to itself, which also happens in `x.metadata += ...`: everything is lost; proved for everything else"
  },
  {
   "property": "C81",
   "status": "proved",
   "theorems": [
    "Xigt.C81"
   ],
   "note": ""
  },
  {
   "property": "C82",
   "status": "partial",
   "theorems": [
    "Xigt.C82_partial",
    "Xigt.C82_repair",
    "Xigt.C82_refuted_pop",
    "Xigt.C82_refuted_iadd"
   ],
   "note": "false when an object with an ID comes or goes: the index is stale until refresh_index; proved for all other calls"
  },
  {
   "property": "C83",
   "status": "partial",
   "theorems": [
    "Xigt.C83_spans",
    "Xigt.C83_succeeds",
    "Xigt.C83_partial",
    "Xigt.C83_refuted_missing",
    "Xigt.C83_refuted_none",
    "Xigt.C83_refuted_delim"
   ],
   "note": "proved for expressions with one-character delimiters whose items exist and have values; false otherwise: NameError, TypeError, or another delimiter"
  },
  {
   "property": "C84",
   "status": "partial",
   "theorems": [
    "Xigt.Qry.C84_partial",
    "Xigt.Qry.C84_default",
    "Xigt.Qry.C84_refuted_query",
    "Xigt.Qry.C84_refuted_braces",
    "Xigt.Qry.C84_refuted_nested"
   ],
   "note": "false of queries and descriptions with braces in their text: they are formatted a second time; proved for all others without nested fields and indices"
  },
  {
   "property": "C85",
   "status": "proved",
   "theorems": [
    "Xigt.Qry.C85_agenda",
    "Xigt.Qry.C85_options"
   ],
   "note": ""
  },
  {
   "property": "C86",
   "status": "proved",
   "theorems": [
    "Xigt.Qry.C86_table",
    "Xigt.Qry.C86_injective"
   ],
   "note": ""
  },
  {
   "property": "C87",
   "status": "proved",
   "theorems": [
    "Xigt.Vld.C87_printed",
    "Xigt.Vld.C87_messages",
    "Xigt.Vld.C87_nothing",
    "Xigt.Vld.C87_heading",
    "Xigt.Vld.mem_positions",
    "Xigt.Vld.positions_sorted"
   ],
   "note": ""
  },
  {
   "property": "C88",
   "status": "partial",
   "theorems": [
    "Xigt.Vld.C88_partial",
    "Xigt.Vld.C88_refuted"
   ],
   "note": "false of tier IDs with braces, which are formatted a second time; proved for all others"
  },
  {
   "property": "C89",
   "status": "partial",
   "theorems": [
    "Xigt.C89_partial",
    "Xigt.C89_anywhere",
    "Xigt.C89_refuted"
   ],
   "note": "proved under the conditions of C40 on the data; false without them"
  },
  {
   "property": "C90",
   "status": "partial",
   "theorems": [
    "Xigt.C90_layer",
    "Xigt.C90_partial",
    "Xigt.C90_fragment",
    "Xigt.C90_refuted"
   ],
   "note": "proved under the conditions of C40 on the data; false of attribute names that are no names, which are written without a check"
  },
  {
   "property": "C91",
   "status": "proved",
   "theorems": [
    "Xigt.C91_layer",
    "Xigt.C91_ascii",
    "Xigt.C91_text",
    "Xigt.C91_equal",
    "Xigt.jok_corpus"
   ],
   "note": ""
  },
  {
   "property": "C92",
   "status": "proved",
   "theorems": [
    "Xigt.Tbx.C92_igts",
    "Xigt.Tbx.C92_dropped",
    "Xigt.Tbx.igtAttrs_spec"
   ],
   "note": ""
  },
  {
   "property": "C93",
   "status": "partial",
   "theorems": [
    "Xigt.Tbx.C93_partial",
    "Xigt.Tbx.C93_refuted",
    "Xigt.Tbx.C93_refuted_empty",
    "Xigt.Tbx.C93_refuted_chars"
   ],
   "note": "false of records whose keys give the same ID, of lines without words and of illegal characters; proved for all others"
  },
  {
   "property": "C94",
   "status": "proved",
   "theorems": [
    "Xigt.Tbx.C94_markers",
    "Xigt.Tbx.C94_fails"
   ],
   "note": ""
  },
  {
   "property": "C95",
   "status": "proved",
   "theorems": [
    "Xigt.Srt.C95_stages"
   ],
   "note": ""
  },
  {
   "property": "C96",
   "status": "proved",
   "theorems": [
    "Xigt.Qry.C96_file"
   ],
   "note": ""
  },
  {
   "property": "C97",
   "status": "partial",
   "theorems": [
    "Xigt.XP.C97_referent_partial",
    "Xigt.XP.C97_referrer_partial",
    "Xigt.XP.C97_item",
    "Xigt.XP.C97_refuted"
   ],
   "note": "false of several reference attributes in one step: all but the first are lost in tokenizing; proved for none or one"
  },
  {
   "property": "C98",
   "status": "partial",
   "theorems": [
    "Xigt.Rng.C98_iff",
    "Xigt.Rng.C98_refuted",
    "Xigt.Rng.C98_refuted_type",
    "Xigt.Rng.C98_refuted_id",
    "Xigt.Rng.C98_refuted_refs"
   ],
   "note": "false: the code requires neither the IDs nor the types the schema does, checks only the beginning of an ID, and lets attributes through that exclude each other; C98_iff (for the data of C40) says exactly which corpora are written as valid documents"
  },
  {
   "property": "C99",
   "status": "proved",
   "theorems": [
    "Xigt.Vld.C99_heading",
    "Xigt.Vld.C99_message",
    "Xigt.Vld.C99_reads"
   ],
   "note": ""
  }
 ]
}