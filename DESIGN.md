# Verification of xigt — design

Source under study: `/repo/xigt` (python).  It is read as text only; nothing of it is run.
Everything below is a Lean 4 model (in `lean/Verif`) and theorems about the model.

## Trusted base

* Lean's kernel (4.33.0), and the three standard axioms `propext`, `Classical.choice`, `Quot.sound`
  (each theorem depends on a subset, listed in `AXIOMS.md`).  No own axioms, no `sorry`,
  no `native_decide`/`bv_decide`.
* The reading of the python code into Lean: every definition cites file and lines and states its
  simplifications.  Python semantics relied upon (list/dict/str/`re`/`sorted`) are modelled in
  `Verif/Py.lean` and `Verif/Regex.lean`; these two files are part of the trusted reading.
  Statements of properties use the functions of `Verif/Py.lean` too, so an error there would not show in them;
  `Verif/PySpec.lean` and `pySlice_between` therefore say what these functions do without using them (`py_strip`,
  `py_int`, `py_str`, `py_get`, `py_insert`, `py_splitOnce`, `py_join`, `py_dict_get`, ...),
  and `Verif/RegexSpec.lean` relates the matcher of regular expressions to the set of strings an expression stands
  for (`Re.re_match`: it finds exactly the matches; `Re.re_findall`: `findall` gives the leftmost ones that do not overlap).
* Text layers.  The XML codec is modelled between objects and element trees; what happens to a tree
  that is written and read is `parseElem`.  `Xml/Text.lean` models the serialiser of the standard
  library and a reader of XML text over characters (with declarations, comments, processing instructions and CDATA
  sections, without document types), and C90 proves that together they do what
  `parseElem` says.  That expat reads the documents concerned as this reader does is trusted.
  `Xml/Bytes.lean` models the encoding of characters as bytes (encodings that contain ASCII; no byte order marks, no
  UTF-16; C117 and C118); elsewhere documents are texts.  Likewise `Json/Text.lean` for the module `json` (C91, C158).
* Schemata (C98 and after).  `Schema/Relax.lean` is the semantics of RELAX NG (section 9 of its specification, as far as
  needed) and `Schema/Structure.lean` the schema read line by line; the character classes `\w`, `\d` of XML Schema are a
  structure `Xsd` with the laws used.  `Schema/Xigt.lean` reads xigt.rnc, default-xigt.rnc and odin-xigt.rnc, which
  include the same files under different redefinitions: the names that are redefined are the fields of a structure
  `Names`, and a nested grammar is the pattern for another such structure.  Values are compared as tokens (the
  default datatype of RELAX NG); `xsd:dateTime` is an arbitrary set of strings.  `schema/extensions/syntax.rnc` and
  `dependencies.rnc` are in `Schema/Extensions.lean`; `examples/abkhaz/abkhaz-xigt.rnc` is in `Schema/Abkhaz.lean`.
* Files (C106 and after).  `Files/Model.lean` is a file system of texts: paths are lists of names, relative to a current
  directory; opening for writing empties a file at once.  No links, permissions, encodings or buffering: what is
  written is in the file at once and no other process runs.
* Command lines (C152, C153).  `Scripts/Argparse.lean` is argparse of CPython 3.11.10 as far as the scripts use it: how
  arguments are told apart, abbreviated options, `-vvv`, `--opt=value`, the matching of positionals by regular expressions,
  mutually exclusive groups, choices, required options.  Messages and help texts are not modelled: the outcomes are a
  namespace, the help, or a usage error.  Other versions of python treat `--` differently in places.  The model was compared with
  argparse itself on some ten thousand random command lines (of parsers written like those of the scripts, since /repo is
  not to be run).
* The whole program (C155-C157) is `xigtF` in `Files/Command.lean`: arguments and files to exit status, output and files.
* Not modelled: `xigt_process.py` (it does nothing but end with status 1), logging (but for C52, C121, C166 and C168) and warnings (but for C169, C172 and C173), the third-party `toolbox`,
  `odintxt` and `delphin` packages, Unicode tables beyond the laws named in `Uni`.

## Conventions

* Exceptions are values: `Py α = Except PyErr α`.
* Strings are lists of characters (`Str`).  Unicode character classes (`\w`, `\s`, `\d`) are a
  structure `Uni` with the laws used (digits are word characters, white space is not, exact on
  ASCII); theorems quantify over every such structure.
* Regular expressions are transcribed literally into a small backtracking matcher with python's
  priority order and proved about, not replaced by hand-written parsers.
* Python recursion that may not terminate takes a fuel argument (= the interpreter's stack);
  results are proved for all fuel values.
* A property that the code violates is kept at full strength in `properties.jsonl`; the refutation
  (`..._refuted`, a concrete witness) and the strongest part that holds (`..._partial`) are proved.
  All refutations are listed in `FINDINGS.md`.
* Wrong programs tried against the theorems are in `seeded` (`mut_*.py` the edits, `run.py` the
  harness, `LOG.jsonl` the outcomes).

## Plan per property

| property | model | proof |
|---|---|---|
| C01 C02 C08 | heap of objects; containers with list part and id->object dict; ops append/insert/extend/remove/del/setitem/clear/sort/refresh | invariant, induction over op histories, refinement of lookup |
| C03 | same | case analysis per op; `__setitem__` refuted with witness, partial for others |
| C04 | same, parent field | invariant over histories without item assignment; refuted with it |
| C05 | `__getitem__`, `int(str)`, `id_re` | characterisation, id grammar disjoint from int grammar |
| C06 | `refresh_index` | exact characterisation of success/failure |
| C07 | `__delitem__`→`remove`→`list.remove` with object equality | positional iff no earlier equal element; refutation |
| C80–C82 | setters (clear + extend, lists or containers read while they change), inherited list methods | `extend` characterised by longest fitting prefix; live iteration with step bound; refuted for self-assignment, pop, += |
| C83 | deprecated functions of ref.py with their two regular expressions | both regexes run over rendered expressions; compared with `resolve` (C17) |
| C84–C86 | Python format strings (parser of CPython, `Formatter`, `str.format`), `SafeFormatter`, agenda, table | format strings as lists of texts and fields; both rounds of formatting computed on their renderings; refuted for braces |
| C87, C88 | `print_report` and the logger on report trees; messages as format strings | lines as blocks over the positions in document order; sentences by C84's formatting lemmas |
| C99 | a terminal as a machine over characters with a style | run of the machine over the lines; headings cut at spaces |
| C09 C13 | `id_re` on the regex engine | findall characterisation; C09 refuted ("a b"), partial for full matches |
| C10 C11 C12 | objects as trees, `__eq__` per class | structural induction; C11, C12 refuted with partials |
| C14–C16 | robust_ref_re on the regex engine | lossless split for all newline-free strings; AST of well-formed expressions |
| C17–C19 | resolve over an abstract item getter | denotation of the AST |
| C20–C22 | Item.value/resolve_ref over immutable igt tree, fuel | case analysis; rank argument / cycle argument |
| C23–C25 | ref.referents/referrers; Igt.refresh_indices with caches | relational proof; C25 refuted |
| C26 C27 | query.ancestors as step function | C26 refuted (cycle with multi-character ids), partial acyclic |
| C28 C29 | query.descendants with agenda | measure on unvisited pairs; reachability |
| C30 C31 | sort_tiers keys + stable sort | key comparison; C31 refuted (cycle), partial |
| C32–C35 | ancestor chains | induction over chain; C33 refuted |
| C36 C37 | corpus with generator state | induction over iteration histories |
| C38 C39 | encode/decode between objects and JSON values | structural induction; C39 refuted; C38 partial with exact side condition |
| C40–C42 | element trees, `_indent`, decode, event stream | structural induction; partial |
| C89 | the encoders of single objects: as C40 with the inherited namespaces as own ones | from the lemmas per class behind C40 |
| C90 | ElementTree's serialiser (escapes, short empty elements) and a reader that is an automaton over characters | run of the automaton over the text of an element; shows that `parseElem`, by which C40–C42 and C89 describe the text layer, is right whenever it succeeds |
| C91 | CPython's `json` encoder (escapes, surrogate pairs, indentation) and a reader that is an automaton over characters | run of the automaton over the text of a value; `encode` never makes a key twice, so C91 holds of every corpus |
| C43–C48 | tokenizer and evaluator of xigtpath on trees with ancestor chains | semantics; C46 existence, C47, C48 refuted |
| C49 | index/partition/write with a file system map | conservation; refuted for colliding file names |
| C50 | make_sortkey via `re.split(r'(\d+)')` | alternation; refuted for several keys |
| C68 | the whole of xigt sort | reordering relation, by levels |
| C51 | tally/unique/count on result lists | counting |
| C52 | report trees | induction; parse failure case refuted |
| C53 C54 C69 C70 | validator checks | C53 refuted; C54 findings at positions of the report tree, tracked through the loops; C69 tokens of the split expression; C70 format strings
| C55 C56 C71–C74 | the Toolbox importer from parsed fields on (third-party toolbox module not modelled) | arithmetic of spans; exact contents of imported tiers; C56, C73 refuted |
| C57 | `_respace_decode` on bytes, any encoding | chunk induction; UTF-8 and ISO 8859-1 shown to qualify, UTF-16 refuted |
| C58 | replace_invalid_xml_chars | C58 refuted for astral characters, partial |
| C75 C76 | the ODIN importer from blocks on (third-party odintxt not modelled), with the XML codec | exact contents; round trip through C40; refuted for fields that are not cleaned |
| C92 C93 C94 | the Toolbox importer as a whole: records to IGTs, the file written and read, alignment of markers | induction over records with the tiers made so far; C93 through C40, refuted for colliding keys, empty lines and illegal characters |
| C95 | `Scripts/SortStages.lean`: the stages of `xigt sort`, through C50 and C30 | inversion of the run |
| C96 | `Scripts/QueryFile.lean`: everything `xigt query` prints for a file, through C51, C84 and C86 | induction over the agenda |
| C97 | `Path/Refs.lean`: `referent()`, `referrer()`, `text()`, `value()` in paths, through C23 and the grammar of C44 | sorted dictionaries; refuted for several arguments |
| C59 C77 | latex escape (sequential replaces); a small model of how TeX reads it | per-character induction; C77 refuted where a letter or space follows a control word |
| C60 C78 C79 | latex grid (trellis), export_igt; substitutions are arbitrary functions | loop invariant over groups; for all alignments, the number of items with any given property in each row, with those that wait, is kept (`C60_kept`, `C79_any`); refuted for items that are not aligned or not in order |
| C61 | itsdb export | late binding refuted |
| C62 C63 | select, reference mixin constructor | case analysis |
| C64 | ref.referents/referrers error cases | case analysis; refuted for numeric strings |
| C65 C66 | query.ancestors/descendants | both refuted, partial |
| C67 | nsmap after decode of JSON | structural induction; refuted, partial |
| C98 | `Schema`: RELAX NG patterns and when they match, `xigt-structure.rnc` line by line | the schema is equivalent to a description of documents without patterns (`valid_iff`), the text written to a condition on the corpus; refuted with four corpora |
| C100 | the text is scanned, resolved and run through the event loop (C42); what is read is compared with the document, not with the decoders | relation between elements read and nodes; one lemma per level giving success or failure; refuted with six documents |
| C101 | the pattern of the schema as a regular expression of XML Schema; the expressions are those of C13–C18 | inversion of the pattern into expressions (`algn_iff`); refuted with `a+b`, `a+1` and `a b` |
| C102 | the models of the importers (C75, C92), the writer and the schema together | induction over blocks and fields; C98; refuted with a block without ID and a key with a space |
| C103 | `Schema/Xigt.lean`: the included files as functions of the names they leave open | attributes and children split off pattern by pattern (`XigtProps`); a condition on the corpus without patterns; refuted with a typed tier and with text in a meta |
| C104 | the model of the ODIN importer, the writer and odin-xigt.rnc | as C102, each of the tiers and metas of the extension; refuted with kept headers |
| C105 | default-xigt.rnc as alternatives of tiers; the Toolbox importer | from C120; induction over fields for what is imported; refuted with a part of speech and with `corpus-id` |
| C106 | `Files/Model.lean`: the importer in a file system, with an arbitrary function for the import of a text | induction over the input files: what is written is never read after; refuted where output and input are one file |
| C107 | partitioning in a file system; reading and writing are C40's | the new directory is disjoint from all inputs; the run is that of C49 on the files as they were; refuted with keys that are paths |
| C108 | `Files/Sort.lean`: loading, `Srt.run` (C68, C95) and writing in a file system | the order of objects does not matter for C109's conditions (`stable_reord`); refuted with a default namespace |
| C109 | the reader and the writer of text (C90); what a parsed element is like (`Parsed`) and what is read from it (`Stable`), by induction over elements | the declarations written and read again give the scope they were made from (`rewritten`); then C40 and C90; refuted with a default namespace and with `xml:` |
| C110 | `Srt.run`; keys as paths of the grammar (C44) that look at no contents | insertion into an ascending list; refuted with a key that looks at tiers |
| C111 | `Export/LatexDoc.lean`: the document; a lexer of TeX (control sequences, groups, comments, ends of line and paragraphs) as specification | escaped texts are read as characters (`Prints`); rows belong to tiers in every grid (`grid_any`); refuted with an ID and a text with line breaks |
| C112 | `Files/Export.lean`: loading bit by bit and writing in a file system | induction over the IGTs as they are read; refuted with a second IGT without tier IDs |
| C113 | `Xml/Markup.lean`, `Xml/Document.lean`: documents as trees with comments, processing instructions, CDATA sections, references, quotes and white space; their text (`show`) and what they say (`elem'`) | the reader of text is run over each part; removing comments (`bare`) does not change what is said; `Xml/Grammar.lean`: an invariant of the reader (`At`: the text that brings the reader where it is) shows that nothing else is read (`C113_exact`), and the meaning of references is stated without the reader (`Means`, `C113_refs`) |
| C114 | no `<` that is written is followed by `!` or `?` | induction over elements; refuted with a file as those in /repo/examples |
| C115 | `Xml/AttrOrder.lean`: relations "differ in the order of attributes" on elements, events, objects and outcomes | every stage of reading (parser, event loop, decoders, constructors) respects them |
| C116 | `Xml/AttrSort.lean`: `_QName` and `xigt_attrsort` as a key, insertion sort as in python 3.6/3.7 | the key is a strict total order, stated as a rank and the order of strings; refuted for python 3.8 and later |
| C117 | `Xml/Bytes.lean`: encodings as a partial map from characters to bytes with an inverse (`Coding.Law`; shown for UTF-8, US-ASCII, ISO 8859-1), `xmlcharrefreplace`, XML declarations that name an encoding | the reader is run over the text with references in it, in which names have none (`NamesIn`); refuted for names that the encoding lacks |
| C118 | the same, with `loads`, which decodes as UTF-8 whatever the encoding | encodings that UTF-8 contains; refuted for ISO 8859-1 |
| C119 | both codecs with their text layers; the order of declarations in JSON, which is that of a set, is arbitrary | JSON is the same for the corpus with prefixed names of attributes (`ren`), which JSON keeps (C38) and XML writes as it writes the corpus; refuted for inner declarations and empty types |
| C120 | default-xigt.rnc as alternatives of tiers and of notes; the condition is a table of kinds (`metaTable`, `tierTable`) without patterns | as C103; one or more of two attributes is the same as one of two lists of attributes for attributes with distinct names (`plus_two`) |
| C121 | `Scripts/ValidateMain.lean`: the options `-v` and `-q`, the level of the logger and the exit status, through C52 and C54 | all records have levels up to ERROR (`AtMostError`); refuted with `-q`, with `-v`, and for files that cannot be parsed |
| C122 | `Igt/ObjRefs.lean`: the methods of tiers and items over the functions of C23 and C24 | by lookup of the object's own ID; refuted for an item with the ID of a tier |
| C123 | `Igt/Span.lean`: `Item.span` over value() of C20; the part between two places is stated by its length and characters | through C17; `pySlice_between` also shows that the slices which C17 uses in its statement are the expected ones |
| C124 | `Igt/Span.lean`: `dereference_all`, `get_aligned_tier` beside `dereference` of C26 | by membership in the igt; refuted after a removal, and for tiers without the attribute (`XigtAttributeError` is not imported in ref.py) |
| C125 | `Attr/RefSetters.lean`: attributes whose values may be None | induction on the assignments; refuted: segmentation beside content, and None |
| C126 | `Scripts/QueryMain.lean`: options as argparse delivers them, files with the outcome of loading them; what is printed before an exception too (`printFile`) | induction on the files over C96; of a file that fails by induction on its agenda (`Began`); refuted without an action (`args.agenda` is missing) |
| C127 | `Scripts/QueryShown.lean`: `__repr__` of the seven classes, with `id(self)` as a parameter | through C20, C21 and C84; refuted for circular references and for `--find` |
| C128 | `Path/Tokens.lean`: `tokenize` (C48), `Cut` and `Piece` as the specification | induction over the scanning; refuted for `!` |
| C129 | `Container/Getters.lean`: the six properties of model.py over the world of C04 | through C04; `InObj` as the specification; refuted for removed objects and item assignment |
| C130 | `Xml/ConvertBack.lean`: compositions of the codecs as in C119 | JSON does not depend on which objects repeat the namespaces of the corpus; refuted for carriage returns |
| C131 | `Container/Rename.lean`: assignment to `id` (mixins.py:209-217) on the worlds of C01; also C04 for all histories | exactly what the assignment does; with `refresh_index()` proved, without it refuted |
| C132 | `Igt/Same.lean`: `==` of C10, values of C20, references of C23, attributes of C33 | data that is the same gives the same answers, by induction on the depth of references; refuted for prefixes |
| C133 | `Igt/Keep.lean`: the codecs of C90 and C91, values of C20, references of C23 | through C132; refuted for empty texts, in both formats |
| C134 | `Scripts/SortValues.lean`: the script of C68 and `sort_tiers` of C30, values of C20 | lookup by ID does not depend on the order; all IDs that `resolve` looks up begin with a letter; refuted for tiers referred to by number |
| C135 | `Scripts/ValidateValues.lean`: the validator of C52-C54 and values of C20 | a finished validation has asked every selected item for its value, so that no chain of references is circular; refuted for a referred tier without items |
| C136 | `Import/ToolboxValid.lean`, `Scripts/ValidateClean.lean`: the importer of C55 and C72, the validator of C52-C54 | an invariant of the tiers made so far (`Good`): distinct IDs, numbered items with texts, references to what was made before; it survives writing and reading; refuted for other tier IDs and for colliding keys |
| C137 | `Import/OdinValid.lean`: the importer of C75 and the same | the one tier of an imported igt has numbered items with texts and no references; refuted for repeated block IDs and for lines with reference attributes |
| C138 | `Scripts/ValidateSame.lean`: the validator of C52-C54, the codecs of C90 and C91 | the validator function by function over objects with the same data; streamed and whole reading agree; refuted for empty texts, in both formats |
| C139 | `Scripts/ValidateSort.lean`: the script of C68, `sort_tiers` of C30, the validator of C52-C54 | every condition looks things up by ID, so it gives the same message; repeated IDs are counted whatever the order; refuted for tiers referred to by number |
| C140 | `Schema/Extensions.lean`: `syntaxTier`, `depTier` over the grammars of C103, C120 | iff a condition on the corpus written without patterns, by the lemmas of C103; refuted as to content and alignment of items |
| C141 | `Import/Options.lean`: `prepare`, `makeTb`, `toolboxOptions`, `odinOptions`, `runToolbox`; `json.load` is a parameter | `setdefault` as a lookup with an alternative; options of the right kind give the alignments of C94; refuted for a configuration with a `tier_map` only |
| C142 | `Igt/Renamed.lean`: `value`, `igtReferents`, `igtReferrers`, `descendants`, `ancestors` of the model; a renaming is a function on IDs, references are expressions of the grammar of C14 with other IDs | a relation of the igt before and after, kept by looking up, by the maps of references and by each round of the loops; refuted for `ancestors()` with IDs of one character |
| C143 | `Path/Same.lean`: the path machine (`findall`, `find`) and the query commands of the model; `Alike` says that prefixes stand for the same and attributes are in the same order, hereditarily | a relation of values (equal objects in equal parents) is kept by each step, predicate, function and operator; saved corpora are so related by C40, C42, C67 and C91 |
| C144 | `Json/Reads.lean`: the decoders of the model; `Says` describes the object a document stands for by its members, without the decoders | each decoder succeeds exactly with what `Says` and `Valid` allow; the reader of texts makes no repeated keys; refuted for types of corpora, IDs of MetaChildren and `null` for lists |
| C145 | `Scripts/SortSame.lean`: the sort script of the model, `KidR` relates equal objects with their contexts | the relation of C143 is kept by finding keys, by sorting with the same keys and by putting the sorted lists in place; refuted for prefixes and `@*` |
| C146 | `Export/LatexSame.lean`: the exporter of C60 and C111 | grids of equal items are kept so by each function that changes them; the texts of cells are equal by C133 |
| C147 | `Scripts/SortPaths.lean`: C68 gives a sorted corpus as the same in another order (`Reord`); `SameVal` and `Shuf` say what is the same of results | `Loc` relates places of the two corpora; every step keeps results related up to order, by induction over the path; referrers by counting what each object adds under a key; refuted for references by place and repeated IDs |
| C148 | `Scripts/PartitionPaths.lean`: with C49, the output files have the IGTs of the input files; `SameBelow` compares results up to the IGT, `foundIn` is what is found in several corpora | `Below` relates the same object in the same IGT of two corpora; no step leads out of an IGT, by induction over the path; C44 (`Lin`) joins the results of several corpora; refuted for the metadata of corpora, which is dropped |
| C149 | `Schema/Abkhaz.lean`: `abkhaz_rnc` over the grammars of C103, C120; the notes of default-xigt.rnc see the added kinds too | iff a condition written without patterns; `Wrote.child` describes the elements in notes; items that are no nodes need not be leaves of words (`C149_loose`) |
| C150 | `Schema/Outline.lean`: an outline that all schemata agree on; `Schema/Rewrite.lean`: `Re`, the same node but for the order of attributes; `Schema/Kept.lean` | what is read is `Wrote` of the corpus up to `Re`, which patterns do not see; the conditions of C98, C103, C120, C140, C149, C154 do not depend on order; false of documents no schema allows (`C150_refuted`) |
| C151 | `Schema/Parts.lean`; the partition is C107's, the schemata those of C150 | what a schema says of a corpus is what it says of each IGT and of the root; IGTs that were read carry their namespaces, so they can be written anywhere (`Movable`); the converse is false (`C151_refuted`) |
| C152 | `Scripts/Argparse.lean`, `Scripts/Command.lean`: argparse as far as it is used, the parser of main.py; `Script.word` is the spec of the names | the pattern of the positionals is matched for every command line (`match_main`), then both directions by cases; refuted for `--` after the command, which is lost |
| C153 | `Scripts/CommandGiven.lean`: `Given` is an option as written (apart, with =, glued, repeated letter), `argsOf`/`lastOf`/`allOf` what is said of an option; `Scripts/CommandProps.lean`, `Scripts/CommandScripts.lean` | each written option is taken as one action (`taken_given`), by induction over the command line; positionals by the lemmas on their patterns; what actions do is folded per attribute (`eff`); refuted for files apart from each other |
| C154 | `Schema/OdinGeneral.lean`: `CorpusFitsO`, the kinds of tiers as a table (`odinKinds`); patterns are those of C104 | iff a condition without patterns; attribute patterns of a kind against rows of the table (`fit_atts`), then tiers, IGTs, corpora as in C103, C120; no IGT fits this and another schema (`C154_alone`); what it leaves open (`C154_loose`) |
| C155 | `Scripts/CommandOrigin.lean`: `SaidIn`, `Short`, `Explained` are the spec of what is said on a command line | what an argument is taken for (`optional_tuple`), letters one by one (`glued_said`), positionals by their patterns; an invariant of the loop over the namespace (`Ok`, `all_ok`, `loop_ok`); then the options of each script |
| C156 | `Files/Command.lean`: `xigtF`, the whole program from arguments and files to exit status, output and files; `MayChange` is the spec, by arguments only | where the arguments of scripts come from (C155), and for each script that only the paths it was given change, however it ends (`OnlyFiles`, `Only`); partitions by C107; refuted for keys that are paths |
| C157 | the same `xigtF`; what is said is `lastWord`, `allWords`, `saidAny` of the options as written (`sortSaid`), the spec of C153 | C152 and C153 for what the script gets, then unfolding of the script; with C106, C107, C108, C112 for the files |
| C158 | `jsonLoads` of `Json/Text.lean`, a reader by characters; spec: the grammar as inductive relations `Ch`, `Chars`, `Value`, `Items`, `Members`, `Text` with `dictOf` for members, none of which uses the reader | what is in the grammar is read: induction over derivations; what is read is in the grammar: an invariant `Inv` says for each state what has been read; with C144 for corpora |
| C159 | `readText`, `loadsXml` of `Xml/Text.lean`, `parseElem` and the decoders of `Xml/`; spec: `Doc` of C113, `Resolved` (declarations and names as Namespaces in XML says), `Says` (what an element says) | induction over elements; `dictOf` as in C158 for declarations; with C113 for texts and C42 for the event loop, hence the condition `Layout` |
| C160 | `Part.run` of C49 and `validateCorpus` of C52; in the file system `Files.partition` of C107 | the report of an IGT does not depend on the others but for its ID; with C49 (which IGTs are where), C138 (after writing and reading) and C107 |
| C161 | `Scripts/ValidateOut.lean`: the standard output of the validator (`outFiles`), with index and ID of a report taken from the corpus by its position | induction on the files over C87; reading: headings in order with each parent before its children are known by depth and last number (`positions_known`), files by lines that do not begin with a blank |
| C162 | `Scripts/QuerySame.lean`: nothing new is modelled; the programs of C126, C68 and C49 one after the other | C143, C147 and C148 say how the results of paths are related; from there through `printAgenda` and `allFiles` (equal), `processAgenda` (sorted: `fillAll` and the number of different keys do not depend on the order) and the lengths of the results (partition) |
| C163 | `Export/ItsdbDefault.lean`: the default expression as a function (`defaultInput`) over `select` (C62) and `value` (C20); an Item is always true | cases over the first tiers with a type; equal IGTs by `value_same` (C132) |
| C164 | `Export/Sorted.lean`: the exporters (C59, C61, C111) on the results of `sortKids`, `sortTiers`, `Srt.run` (C50, C68) and `Part.run` (C49) | blocks are a function of the IGT; values in an IGT with sorted tiers are the same (C134); rows but for `i-id` do not depend on the number |
| C165 | `Files/Itsdb.lean`: `prepare_config` and `xigt_export` of the [incr tsdb()] exporter over the file system of C106; `delphin` and `eval` are parameters | what the prepared configuration says of each key; rows by C61; the command by C157 |
| C166 | `Files/Log.lean`: sorting and partitioning once more with their messages (`LAct`, `sortL`, `partitionL`, `xigtL`) | without the log they are the programs of C107 and C108 (`Same`); the index of C49 has the keys in order and for each its files (`Inv`) |
| C167 | `Import/ToolboxTotal.lean`: the model of C72 and C92 | fitting records are described by the IDs and sizes of the tiers before each field (`made`); making a tier succeeds exactly if its cells fit (`makeTier_ok`), by induction over the fields with the known tiers as invariant (`Inv`) |
| C168 | `Import/ToolboxLog.lean`: `make_igt` and `toolbox_igts` once more with their messages, and the levels of C166 | without the log they are those of C92; a record is left out exactly if it does not fit (C167) and is unusable (C92) |
| C169 | `Igt/Warn.lean`: `refresh_indices` (C24) once more with the calls of `warnings.warn` | comparison is equality of data (C10, C12), so a chain of equal items is one of pairwise equal ones (`warned_iff`) |
| C170 | `Import/ToolboxNames.lean`: the importer of C72 and the lookups of C22–C25 | the invariant of C136 (`Good`) gives different IDs of tiers and items (`Good.igtOK`), so lookups are exact (C24); files by C93 |
| C171 | `Import/OdinNames.lean`: the importer of C75 and the lookups of C20, C22–C25 | items are numbered (`Lines.ids`), so their IDs are different; the description survives the file (`Lines.same`, C76) |
| C172 | `Import/ToolboxWarn.lean`: `make_igt` and `toolbox_igts` once more with `catch_warnings`, what the toolbox module warns of given with each field, and the warnings of C169 | without the warnings they are those of C72; what is issued is that of all fields or of those up to the first that fails (`makeAllTiersW_issued`); none of the Igt by C170 |
| C173 | `Tree/MetadataText.lean`: the constructor of Metadata, its properties `metas` and `text`, `append` and `extend` on values, with warnings | what is taken is the longest beginning that can be in a Metadata (`mdExtend_cases`) |
| C174 | `Export/ToolboxItsdb.lean`: the importer of C72, C92 and the expression of C163 | over the tiers of an imported IGT (C72): where the first tier of phrases or words is (`tiers_phrase`, `tiers_words`, `tiers_nothing`) |
| C175 | `Corpus/Assign.lean`: assigning to `igts` over the corpus of C36, C37 | after a complete iteration the mode is full (`complete_mode`), and then the list is what is iterated over; before, the source is (`complete_held`) |
| C176 | `Container/Undo.lean`: the containers of C01 | the index of both worlds is in sync with the same list (`sameView_of_sync`); what `list.remove` takes out (`remove_list`, `before_differs`); refuted for equal objects without IDs |
