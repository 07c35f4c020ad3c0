# properties added as the model grew; executed by mkprops.py
p('C64','referents() and referrers() raise XigtLookupError exactly for unknown IDs',
  'referents(igt, i) and referrers(igt, i) succeed for every ID of a tier or (indexed) item of the igt, and raise XigtLookupError, and no other error, for every other string.',
  'all igts and strings', 'Complete case analysis over all strings and igts.', [REF+':referents', REF+':referrers'])
p('C65','ancestors() stops only where it must',
  'If query.ancestors stops without an exception, the last tier reached has no reference attribute or was met before.',
  'all igts and start objects', 'The visited check mixes strings and sets of characters; only all reference graphs and IDs show it.', [Q+':ancestors'])
p('C66','descendants() lists every indirectly referring item',
  'With follow="all", every item that refers, directly or through items of other tiers, to a start item is listed in some step.',
  'all igts and start items', 'Depends on the order in which tiers are reached.', [Q+':descendants'])
p('C67','Namespace declarations survive JSON',
  'After decoding the JSON encoding of a corpus, every object has the namespace map it had before.',
  'all corpora', 'Depends on all ways of nesting declarations.', [J+':_make_obj', J+':decode', J+':active_namespaces'])
p('C68','xigt sort only reorders',
  'The output of xigt sort differs from the input only in the order of the IGTs in the corpus, of the tiers in IGTs and of the items in tiers.',
  'all corpora, key paths and tier dependencies', 'Conservation law over all corpora and keys.', ['xigt/scripts/xigt_sort.py:run', 'xigt/model.py:Igt.sort_tiers'])
p('C69','The validator reports spans beyond the end',
  'For a reference made of selections joined by + or ,, the validator reports exactly the spans that begin or end beyond the end of the value of the selected item.',
  'all references, igts and values', 'Universally quantified over expressions and values.', ['xigt/scripts/xigt_validate.py:algnexpr_spans_in_aligned_item'])
p('C70','The validator finishes',
  'xigt validate finishes without an exception for every corpus whose IDs are XML-style IDs, whose references are selections joined by + or ,, whose values can be computed, and in which items of which spans are selected have a value.',
  'all corpora', 'Every kind of message and every path through the checks must be followed.', ['xigt/scripts/xigt_validate.py:validate_corpus', 'xigt/scripts/xigt_validate.py:validate_condition'])
TBX='xigt/importers/toolbox.py'
p('C71','Morphemes that spell their word select themselves',
  'If a word in lower case without hyphens is spelled by its morphemes without their boundary marks, the reference computed for each morpheme evaluates to exactly that morpheme without its marks (a sole morpheme having no marks).',
  'all words and morpheme lists', 'Arithmetic with a search over all words and morphemes.', [TBX+':align_word', TBX+':make_tier'])
p('C72','Importing Toolbox keeps every token once and in order',
  'Every tier imported from a Toolbox record contains exactly the tokens of its line, in order, with IDs made of the tier ID and 1, 2, 3, ..., which are distinct; there are no other tiers but phrase tiers.',
  'all records and options', 'Universally quantified over token lists.', [TBX+':make_all_tiers', TBX+':make_tier', TBX+':make_igt'])
p('C73','Record keys become valid IGT IDs',
  'The key of every Toolbox record is turned into a valid ID, different keys into different IDs.',
  'all keys', 'Universally quantified over strings.', [TBX+':make_igt'])
p('C74','Imported tokens refer to what they are aligned with',
  'Every item imported from a token that Toolbox aligns with a token of another line refers to the item at the position of that token, or to a span of it, and to nothing else.',
  'all records and options', 'Universally quantified over alignments.', [TBX+':make_tier', TBX+':make_all_tiers'])
ODN='xigt/importers/odin.py'
p('C75','Importing ODIN keeps every block and line',
  'Every block with a document, line types, a line range of two parts, an accepted ID and a content for every line becomes one IGT, in order, with one tier r of items r1, r2, ... that hold the cleaned lines and their other data; of any other block nothing is imported but an exception is raised.',
  'all blocks and options', 'Universally quantified over blocks.', [ODN+':odin_igts', ODN+':make_igt', ODN+':make_igt_raw_tier', ODN+':make_igt_attributes', ODN+':make_igt_metadata'])
p('C76','What the ODIN importer writes can be read',
  'Reading the file the ODIN importer writes gives the corpus it imported.',
  'all blocks and options', 'Depends on all characters in all fields of a block.', [ODN+':_xigt_import', ODN+':replace_invalid_xml_chars', ODN+':make_igt_metadata'])
LTX='xigt/exporters/latex.py'
p('C77','TeX prints what was escaped',
  'TeX, reading the escaped form of a string, prints exactly the characters of the string.',
  'all strings', 'Depends on every character and on what follows it.', [LTX+':escape', LTX+':LATEX_CHARMAP'])
p('C78','Items stand in the columns of what they refer to',
  'In the LaTeX grid every item stands in the same column as all items of the previous tier from the first to the last it refers to.',
  'all tier lists with references to the previous tier in order', 'Columns are merged and shifted in a loop over all tiers.', [LTX+':group_alignments', LTX+':align_tier', LTX+':merge_columns', LTX+':get_agenda'])
p('C79','The exported LaTeX lines show the grid',
  'The LaTeX block of an IGT has one line for each tier of the wanted types, made of as many groups as the grid has columns, the groups holding the escaped texts of the items of the tier in their columns, and one line for each tier of translations; an IGT with fewer than two tiers of the wanted types becomes a comment.',
  'all IGTs', 'Universally quantified over IGTs and texts; groups must be recognisable whatever the texts contain.', [LTX+':export_igt', LTX+':escape', LTX+':group_alignments'])
MIX='xigt/mixins.py'
p('C80','Assigning contents replaces them',
  'After assigning a list or container to igts, tiers, items, metas, children or metadata, the container holds exactly the assigned objects in their order, finds them by ID and is their parent; if an object is of the wrong class or its ID is taken the call raises and the container holds the objects before it.',
  'all containers, assigned lists and containers', 'Universally quantified over contents, including what is assigned being the container itself.',
  ['xigt/model.py:XigtCorpus.igts', 'xigt/model.py:Igt.tiers', 'xigt/model.py:Tier.items', 'xigt/metadata.py:XigtMetadataMixin.metadata', MIX+':XigtContainerMixin.extend', MIX+':XigtContainerMixin.clear'])
p('C81','Extending a container by itself ends exactly if an ID stops it',
  'Extending a container by itself ends exactly if it is empty or some contained object has an ID; if one has, XigtError is raised after the objects before it were added a second time.',
  'all containers reached by calls that keep the index', 'Non-termination cannot be observed by a test.', [MIX+':XigtContainerMixin.extend', MIX+':XigtContainerMixin.append'])
p('C82','List methods that containers inherit leave the index alone',
  'After pop, reverse, sort, += and *= on a container, lookup by ID agrees with the contents; refresh_index makes it agree whenever no two contained objects share an ID.',
  'all containers and sequences of such calls', 'Universally quantified over call sequences.', [MIX+':XigtContainerMixin', MIX+':XigtContainerMixin.refresh_index'])
p('C83','Deprecated resolution agrees with the current one',
  'resolve_alignment_expression and get_alignment_expression_spans, which are deprecated, do on every alignment expression what resolve and spans do: the former gives the same text or raises the same exception, the latter lists IDs, selections with their numbers and delimiters in order.',
  'all well-formed alignment expressions and all items', 'Universally quantified over expressions.', ['xigt/ref.py:resolve_alignment_expression','xigt/ref.py:resolve_alignment','xigt/ref.py:get_alignment_expression_spans'])
QRY='xigt/scripts/xigt_query.py'
VLD='xigt/scripts/xigt_validate.py'
p('C84','Descriptions of query results show what they should',
  'The description of a match printed by xigt query is the description given (or the default one) with query, subquery and match filled in for their fields and everything else unchanged.',
  'all descriptions, queries and matches', 'Universally quantified over format strings, which are formatted twice.', [QRY+':SafeFormatter.vformat', QRY+':make_job', QRY+':find_pattern', QRY+':tally_pattern'])
p('C85','The agenda follows the options',
  'The agenda of xigt query has an entry for each action in the order of the options; its description is the last one given between the action and the next, or the default one.',
  'all option lists that begin with an action', 'Universally quantified over option lists.', [QRY+':make_job', QRY+':AgendaAction'])
p('C86','The table of query results is aligned and can be read back',
  'The table of results has a line for each result in order; the numbers end in the same column, the longest preceded by one space, followed by a tab and the description; two different lists of results never give the same lines.',
  'all lists of results', 'Universally quantified over numbers and descriptions.', [QRY+':print_results'])
p('C87','The validator prints exactly the problems of the level',
  'For each element in the order of the document with a problem of the level or above in it or in what it contains, the validator prints a heading followed by its own messages of the level or above; nothing else is printed, so nothing is printed exactly if the file passes, and no heading fails.',
  'all reports and levels', 'Universally quantified over report trees; reports are filtered, then printed, then filtered again by the logger.', [VLD+':filter_empty_reports', VLD+':report_is_empty', VLD+':print_report', VLD+':format_heading', VLD+':format_message'])
p('C88','Messages of the validator name what is wrong',
  'The text of each message is its sentence with the modal verb of its level, the name of the element, its scope, and the IDs and attributes concerned.',
  'all messages, IDs and attributes', 'Universally quantified over the texts inserted, which are formatted twice.', [VLD+':validate_condition', VLD+':make_context', VLD+':must', VLD+':should', VLD+':may'])
XM='xigt/codecs/xigtxml.py'
p('C89','Every object can be encoded by itself',
  'The element that encode_igt, encode_tier, encode_item, encode_metadata, encode_meta or encode_metachild makes of an object anywhere in a corpus declares all namespaces it needs, and is decoded to an equal object, with every indentation.',
  'all objects of all classes, wherever they are, and all indentations', 'Universally quantified over objects and the namespaces around them.', [XM+':default_encode_igt', XM+':default_encode_tier', XM+':default_encode_item', XM+':default_encode_metadata', XM+':default_encode_meta', XM+':default_encode_metachild'])
p('C90','The text of an XML document can be read back, character by character',
  'Reading the characters that dumps (or the encoder of an object) writes, with a reader that sees one character at a time, gives an equal corpus (object): no text, attribute value or name of an object is taken for markup or changed by escaping.',
  'all corpora and objects, all indentations', 'Universally quantified over all characters in all texts, values and names.', [XM+':dumps', XM+':loads', XM+':_build_elem', XM+':_tostring'])
JS='xigt/codecs/xigtjson.py'
p('C91','The text of a JSON document can be read back, character by character',
  'For every corpus and indentation, reading the characters that dumps of the JSON codec writes gives what decoding the encoded value gives, so the text layer neither loses nor changes anything; the text has only printable ASCII characters and line breaks.',
  'all corpora and indentations', 'Universally quantified over all characters in all strings, keys included.', [JS+':dumps', JS+':dump', JS+':loads', JS+':load', JS+':encode'])
TB='xigt/importers/toolbox.py'
p('C92','A Toolbox file becomes one IGT for each record',
  'If importing a Toolbox file finishes, there is an IGT for every record with a key, in order, unless Toolbox could not align a field or tokens have nothing to be aligned with; its ID is the key (after "igt" if it does not begin with a letter), its attributes are exactly the last values of the mapped markers, and it has a tier for every mapped field with exactly the tokens of the field.',
  'all records and options', 'Universally quantified over lists of records, fields and alignments.', [TB+':toolbox_igts', TB+':make_igt', TB+':make_all_tiers', TB+':make_tier'])
p('C93','What the Toolbox importer writes can be read',
  'The file written for the imported IGTs can be read, with every indentation, and the corpus read is equal to the one imported.',
  'all records, options and indentations', 'Universally quantified over records; concerns two different modules.', [TB+':xigt_import', TB+':make_igt', XM+':dump', XM+':load'])
p('C94','Toolbox markers are aligned as the tiers are',
  'The alignment of markers passed to Toolbox relates exactly the last markers of tiers that are aligned and both interlinear; making it raises KeyError exactly if such a tier has no marker.',
  'all tier maps, tier types and alignments', 'Universally quantified over three maps.', [TB+':_make_tb_alignments'])
XPP='xigt/xigtpath.py'
SRT='xigt/scripts/xigt_sort.py'
p('C95','xigt sort sorts each level by what is asked for',
  'The IGTs are sorted by the IGT key; then the tiers of every IGT by the tier key, or without one by the tier dependencies; then the items of every tier by the item key; a level nothing is given for is left as it is, and a sort is stable.',
  'all corpora and combinations of options', 'Universally quantified over corpora and keys; later sorts see what earlier ones made.', [SRT+':run', SRT+':make_sortkey'])
p('C96','The output of xigt query for a file',
  'For each file the script prints its heading, a line for each match of each find action, an aligned table of the results of the other actions in the order of the agenda (each group of a tally once with its number, the number of different matches, the number of matches), and an empty line.',
  'all corpora, agendas and descriptions', 'Universally quantified over agendas.', [QRY+':run', QRY+':process_agenda', QRY+':print_results', QRY+':find_pattern'])
p('C97','referent() and referrer() follow references',
  'The step referent() finds, for each of the given (or allowed) reference attributes in ascending order, the tiers or items with the IDs mentioned in it; referrer() finds the objects of the same level that mention the object in it, in the order of the document; text() and value() give text and value.',
  'all igts, objects and reference attributes', 'Universally quantified over igts and expressions.', [XPP+':_find_referent', XPP+':_find_referrer', XPP+':_function', 'xigt/ref.py:referents', 'xigt/ref.py:referrers'])
SCH='schema/xigt-structure.rnc'
p('C98','What is written is valid',
  'Every corpus is written, with every indentation, as a document that schema/xigt-structure.rnc allows.',
  'all corpora and indentations', 'Universally quantified over corpora; relates the text that is written to a schema in another language.', [XM+':dumps', XM+':_build_elem', SCH+':XigtCorpus', SCH+':Igt', SCH+':Tier', SCH+':Item', SCH+':Metadata'])
p('C99','The validator\'s output is the same with and without colours',
  'With colours, a terminal shows the characters that are printed without colours, headings in bold and each message in the colour of its level, and is in its initial state after every line; the depth, index and ID of an element can be told from its heading.',
  'all headings and messages without control characters', 'Universally quantified over IDs, indices and messages.', [VLD+':format_heading', VLD+':format_message'])
p('C100','Every document the schema allows is read, with everything in it',
  'Every text of a document that schema/xigt-structure.rnc allows is loaded without an error, and the corpus has an object for every element, with its attributes and text.',
  'all texts of valid documents, and all ways of cutting the input', 'Universally quantified over documents.', [XM+':loads', XM+':default_decode', XM+':iter_elements', XM+':default_decode_igt', XM+':default_decode_tier', XM+':default_decode_item', XM+':default_decode_metadata', XM+':default_decode_meta', XM+':default_decode_metachild', SCH+':XigtCorpus'])
p('C101','The alignment expressions the schema allows are those the code reads',
  'A string is a valid alignment expression (AlgnExpr) exactly if it is written from selections of identifiers and unsigned spans joined by commas and plus signs, and the code divides every valid string into the same identifiers, selections, spans and text as the schema does.',
  'all strings, and all items referred to', 'Universally quantified over strings; relates the regular expressions of two languages.', [SCH+':AlgnExpr', SCH+':Id', 'xigt/ref.py:ids', 'xigt/ref.py:selections', 'xigt/ref.py:spans', 'xigt/ref.py:resolve'])
p('C102','What the importers write is valid',
  'Everything the ODIN importer and the Toolbox importer (with the default options) import and write is a document that schema/xigt-structure.rnc allows, with every indentation.',
  'all blocks, records, suitable options and indentations', 'Universally quantified over inputs; relates importers to a schema in another language.', ['xigt/importers/odin.py:_xigt_import', 'xigt/importers/odin.py:make_igt', TB+':make_igt', TB+':make_all_tiers', TB+':make_tier', SCH+':XigtCorpus'])
XR='schema/xigt.rnc'
p('C103','What is written is valid against xigt.rnc',
  'Every corpus that is written as a document schema/xigt-structure.rnc allows is, with every indentation, a document that schema/xigt.rnc allows.',
  'all corpora and indentations', 'Universally quantified over corpora; relates the text that is written to schemata in another language.', [XM+':dumps', XM+':_build_elem', XR, 'schema/xigt-corpus.rnc:Corpus.subtype', 'schema/xigt-igt.rnc:Igt', 'schema/xigt-tier.rnc:Tier', 'schema/xigt-item.rnc:Item', 'schema/xigt-metadata.rnc:Metadata', 'schema/xigt-meta.rnc:Meta'])
p('C104','What the ODIN importer writes is valid against odin-xigt.rnc',
  'Everything the ODIN importer imports and writes is a document that schema/extensions/odin-xigt.rnc allows, with every indentation and with every setting of keep_headers.',
  'all blocks, options and indentations', 'Universally quantified over inputs; relates an importer to a schema in another language.', ['xigt/importers/odin.py:_xigt_import', 'xigt/importers/odin.py:make_igt', 'xigt/importers/odin.py:make_igt_metadata', 'xigt/importers/odin.py:make_igt_raw_tier', 'schema/extensions/odin-xigt.rnc'])
p('C105','What the Toolbox importer writes is valid against default-xigt.rnc',
  'Everything the Toolbox importer imports and writes with the default options is a document that schema/default-xigt.rnc allows; of corpora in general those without other attributes than the schema lists and with tiers and items of the types it lists are written as valid documents.',
  'all records, corpora and indentations', 'Universally quantified over inputs; relates an importer to a schema in another language.', [TB+':make_igt', TB+':make_all_tiers', TB+':make_tier', 'schema/default-xigt.rnc'])
p('C106','Importing ODIN files changes only its output files',
  'Importing a directory (or a file) changes no file but the output files, in or under the output path; every input file whose name has the suffix is read as it was and gives the file of the same name with .xml for the suffix, up to the first error; a directory and a file do not go together and nothing is changed then.',
  'all file systems, paths, suffixes and ways of importing a text', 'Universally quantified over file systems, including those in which inputs and outputs coincide.', ['xigt/importers/odin.py:xigt_import', 'xigt/importers/odin.py:_xigt_import', 'xigt/scripts/xigt_import.py:run'])
p('C107','Partitioning changes no file outside the output directory',
  'Partitioning makes a new directory and changes no file outside it, whatever happens; it succeeds just if all files can be read, keyed and written, and then the directory has exactly one file for each group, with what the input files had at the start. If there is such a directory, the script ends with status 1 and nothing is changed.',
  'all file systems, input files, key paths and output directories', 'Universally quantified over file systems and the keys found in the data.', ['xigt/scripts/xigt_partition.py:run', 'xigt/scripts/xigt_partition.py:create_outdir', 'xigt/scripts/xigt_partition.py:index', 'xigt/scripts/xigt_partition.py:write'])
p('C108','Sorting in place changes only the file, and only by sorting',
  'xigt sort changes no file but, with --in-place, the one it sorts, and this only if there is no exception; the file then has the sorted corpus, in which the same objects are in another order, and can be read as exactly this corpus. Without --in-place what is printed is that document. Sorting the file again leaves it as it is.',
  'all file systems, files, arguments and ways of reading ahead', 'Universally quantified over file systems, documents and sort keys.', ['xigt/scripts/xigt_sort.py:run', XM+':load', XM+':dump'])
p('C109','What was read can be written and read again',
  'A corpus that was read from a document can be written, with every indentation, and what is read from the text that was written is the same corpus, including namespace maps and the order of attributes, however the text is cut into chunks.',
  'all documents and indentations', 'Universally quantified over documents, including those that were not written by this codec.', [XM+':load', XM+':loads', XM+':dumps', XM+':_build_elem', XM+':get_attributes', XM+':default_decode_metachild'])
p('C110','Sorting what was sorted changes nothing',
  'If xigt sort makes one corpus of another, it makes this corpus of itself, with the same arguments.',
  'all corpora and arguments', 'Universally quantified over corpora and sort keys; keys are queries that may look at anything.', ['xigt/scripts/xigt_sort.py:run', 'xigt/scripts/xigt_sort.py:make_sortkey', XPP+':find'])
LT='xigt/exporters/latex.py'
p('C111','The exported LaTeX is read by TeX as one complete document',
  'TeX reads the exported text as the preamble, one block for each IGT in order, and the ending: an example with one row of groups for each tier shown, each group holding nothing but the printed characters of its items, and the translations, or nothing for an IGT with too few tiers; nothing in the data is read as a command, a group or a comment.',
  'all IGTs, configurations without substitutions and texts', 'Universally quantified over texts; relates the output to another language that reads it.', [LT+':xigt_export', LT+':header', LT+':footer', LT+':export_corpus', LT+':export_igt', LT+':escape', LT+':align_tier'])
p('C112','Exporting LaTeX changes only the output file, which is a complete document',
  'xigt export changes no file but the output; this is the document with the blocks of all IGTs of the input in order, unless there is an exception.',
  'all file systems, inputs and configurations', 'Universally quantified over file systems and inputs, including those where exporting stops half way.', ['xigt/scripts/xigt_export.py:run', LT+':xigt_export', XM+':load'])
p('C113','What is read from a document is what it says',
  'A document with an XML declaration, comments, processing instructions, CDATA sections, references, single or double quotes, white space in tags and either form of empty elements is read as the same corpus as the document without these that has the same elements, attributes and text.',
  'all well-formed documents without a document type, in every mode and chunking', 'Universally quantified over documents and the places where a comment may stand.', [XM+':load', XM+':loads', XM+':ns_iterparse', XM+':decode', XM+':iter_elements'])
p('C114','Comments survive rewriting',
  'A comment in a document that is sorted in place is still there afterwards.',
  'all documents', 'Universally quantified over documents; a test compares corpora, which have no comments.', [XM+':load', XM+':dump', XM+':_build_corpus', 'xigt/scripts/xigt_sort.py:run'])
p('C115','The order of attributes in a document does not matter',
  'Two documents that differ only in the order of attributes and namespace declarations are read with the same outcome: the same exception, or equal corpora. What is written is read as the same corpus whether the serialiser sorts attributes (python 3.6, 3.7) or not.',
  'all well-formed documents, modes and chunkings; all corpora and indentations', 'Universally quantified over documents and permutations of the attributes of every element.', [XM+':loads', XM+':ns_iterparse', XM+':decode', XM+':get_attributes', XM+':dumps'])
p('C116','Attributes are written in one order',
  'In every element that is written, namespace declarations come first, then id, type, alignment, content and segmentation, then the other attributes in order of their names; so equal elements are written with the same text.',
  'all corpora and indentations', 'Universally quantified over corpora; the order of insertion is invisible to ==.', [XM+':xigt_attrsort', XM+':_QName', XM+':_build_elem', XM+':dumps'])
p('C117','What is written in any encoding can be read',
  'The bytes that dump() writes with any encoding= that the parser knows are read by load() as an equal corpus; characters that the encoding lacks are written as references.',
  'all corpora, indentations and encodings that contain ASCII', 'Universally quantified over corpora and encodings; which characters need references depends on both.', [XM+':dump', XM+':load', XM+':encode_xigtcorpus'])
p('C118','loads() reads what dumps() returned, in every encoding',
  'If dumps() is given an encoding= and returns bytes, loads() reads them as an equal corpus.',
  'all corpora, indentations and encodings', 'Universally quantified over corpora and encodings; ASCII texts do not show the difference between encodings.', [XM+':dumps', XM+':loads'])
p('C119','From XML to JSON and back',
  'A corpus that is read from XML, written as JSON, read again, written as XML and read is the same corpus.',
  'all documents and indentations', 'Universally quantified over documents; the two codecs treat namespaces differently, and each is tested only with itself.', [XM+':decode', XM+':_build_elem', 'xigt/codecs/xigtjson.py:_make_obj', 'xigt/codecs/xigtjson.py:decode'])
p('C120','Which corpora default-xigt.rnc allows, with their metadata',
  'What is written of a corpus is valid against schema/default-xigt.rnc exactly if tiers and items are of the types it lists, notes in metadata are of the types it lists (language, date, author, source, comment, or none) with the attributes and the kind of content it lists for the type, references and identifiers have the form it asks for, and there are no further attributes.',
  'all corpora and indentations', 'Universally quantified over corpora; relates the writer to a schema in another language.', [XM+':_build_elem', 'schema/default-xigt.rnc', 'schema/xigt-meta.rnc', 'schema/xigt-metadata.rnc'])
p('C121','The exit status of xigt validate says whether there are errors',
  'xigt validate ends with status 0 exactly if all files can be read and no error is found in any of them, with whatever verbosity it is run.',
  'all files and options', 'Universally quantified over files; the level of what is printed also decides the status, which shows only if files with errors are checked with other options.', [VLD+':main', VLD+':run', VLD+':filter_empty_reports'])
p('C122','The referents and referrers of a tier or item are its own',
  'x.referents() of a tier or item x gives the IDs in the reference attributes of x itself; x.referrers() gives the tiers, or items, that have the ID of x in such an attribute; without IGT or ID they raise XigtError.',
  'all igts, tiers and items', 'Universally quantified over igts; the methods look the object up by its ID instead of using it.', ['xigt/mixins.py:referents', 'xigt/mixins.py:referrers', REF+':referents', REF+':referrers'])
p('C123','span() of an item is what a reference with the same span selects',
  'item.span(a, b) is the part of the value between the two places, where negative ones count from the end and those beyond an end stand for it; it is None without a value. A reference i[a:b] to the item i resolves to the same text.',
  'all items and bounds', 'Universally quantified over values and bounds of either sign; relates two ways of selecting.', ['xigt/model.py:Item.span', REF+':resolve'])
p('C124','Following references finds the objects they name',
  'dereference_all() gives for each ID in the attribute, in order, the tier or item of the igt that has this ID, or None if none has; dereference() gives the first of them; get_aligned_tier() gives the tier named, and raises XigtAttributeError if the tier has no such attribute.',
  'all igts, objects, attributes and histories of edits', 'Universally quantified over igts and edits; failures show only after removals or on paths for errors.', [REF+':dereference', REF+':dereference_all', REF+':get_aligned_tier'])
p('C125','Reference attributes can be assigned',
  'After any assignments to alignment, content and segmentation of a tier or item each is what was assigned to it last, other attributes are unchanged, references can be read, and segmentation does not occur with the others.',
  'all objects and sequences of assignments', 'Universally quantified over sequences of assignments, with None among what is assigned.', ['xigt/mixins.py:XigtReferenceAttributeMixin'])
p('C126','xigt query answers for each file as if it were alone',
  'xigt query prints for the files, in order, what it prints for each alone, up to and with the first that fails, and ends with the exception of that one or regularly; of the one that fails it prints what was found before, but no results; without files, without an action, or with a description before any action it ends with a message about its usage.',
  'all options and lists of files', 'Universally quantified over options and files; failures show only with options left out or files that cannot be loaded.', [QRY+':main', QRY+':run', QRY+':make_job', QRY+':AgendaAction'])
p('C127','Every object can be shown',
  'repr() of every object gives a text with its ID and its value or the number of its contents, and xigt query --find can print every match.',
  'all objects', 'Universally quantified over objects and their references; repr() of an item computes its value.', ['xigt/model.py:__repr__', 'xigt/metadata.py:__repr__', QRY+':find_pattern'])
p('C128','Reading a path loses nothing but white space',
  'The tokens of an XigtPath, in order, are all of the path but white space: every character outside white space is in a token, and quoted strings stay whole.',
  'all strings', 'Universally quantified over strings; tests use paths that are well formed.', ['xigt/xigtpath.py:tokenize', 'xigt/xigtpath.py:xp_tokenizer_re'])
p('C129','The tier, IGT and corpus of an object are those it is in',
  'After any sequence of edits item.tier, item.igt, item.corpus, tier.igt, tier.corpus and igt.corpus are the objects in which the object is contained, directly or through others, and None if it is contained in none.',
  'all objects and sequences of edits', 'Universally quantified over sequences of edits; the answer is stored when an object is added and must not be left behind by later edits.', ['xigt/model.py:corpus', 'xigt/model.py:igt', 'xigt/model.py:tier', 'xigt/mixins.py:XigtContainerMixin'])
p('C130','From JSON to XML and back',
  'A JSON text as it is written is the same text after it is read, written as XML, read and written as JSON.',
  'all corpora and indentations', 'Universally quantified over corpora; an error shows only where the two formats keep different things.', [XM+':decode', XM+':_build_elem', 'xigt/codecs/xigtjson.py:_make_obj', 'xigt/codecs/xigtjson.py:decode'])
p('C131','Objects in a container can be renamed',
  'After x.id = new, with a valid ID that no other object of the container of x has, x is found under the new ID and no longer under the old one, the others are found as before, and x can be removed; an invalid ID raises ValueError and changes nothing.',
  'all containers, objects, IDs and histories of edits', 'Universally quantified over histories and IDs; the index of the container is not told of the renaming, which shows only when the object is looked up or removed afterwards.', ['xigt/mixins.py:id', 'xigt/mixins.py:XigtContainerMixin', 'xigt/mixins.py:refresh_index'])
p('C132','Equal IGTs answer alike',
  'If two IGTs are equal (==), items at the same places have the same value or raise the same exception, the referents and referrers of every ID are the same, and so are all attributes asked for with get_attribute.',
  'all pairs of equal IGTs', 'Universally quantified over pairs of IGTs that differ in what == ignores; tests compare with == and so cannot see a difference it does not see.', ['xigt/model.py:__eq__', 'xigt/mixins.py:__eq__', 'xigt/mixins.py:get_attribute', 'xigt/model.py:Item.value', REF+':referents', REF+':referrers'])
p('C133','What items say survives saving',
  'After a corpus is saved as XML or JSON and loaded again, the items at the same places have the same values, and the referents and referrers of every ID are the same.',
  'all corpora and indentations', 'Universally quantified over corpora; the values are computed from what is read, so that a difference that looks harmless may change them.', [XM+':encode', XM+':decode', 'xigt/codecs/xigtjson.py:encode', 'xigt/codecs/xigtjson.py:decode', 'xigt/model.py:Item.value'])
p('C134','Sorting does not change what items say',
  'After xigt sort, with whatever keys, and after sort_tiers(), every item has the value it had before.',
  'all corpora and keys', 'Universally quantified over corpora, keys and references of any depth.', ['xigt/scripts/xigt_sort.py:run', 'xigt/model.py:sort_tiers', 'xigt/model.py:Item.value', 'xigt/mixins.py:get'])
p('C135','What the validator passes has values',
  'If xigt validate reports no error in a corpus, value() raises no exception for any of its items.',
  'all corpora', 'Universally quantified over corpora; an item without a value shows only when that item is asked, and the validator looks at references one at a time.', [VLD+':validate_item', VLD+':algnexpr_ids_in_referred_tier', VLD+':get_referred_tier', 'xigt/model.py:Item.value', 'xigt/model.py:Item.resolve_ref'])
p('C136','What the Toolbox importer makes passes the validator',
  'xigt validate finishes with every corpus that the Toolbox importer makes, and reports no error; so it does with the file that is written.',
  'all records and options', 'Universally quantified over records and options; relates an importer, the serializer and the validator.', [TB+':toolbox_igts', TB+':make_all_tiers', TB+':make_tier', VLD+':validate_corpus', VLD+':validate_tier', VLD+':validate_item'])
p('C137','What the ODIN importer makes passes the validator',
  'xigt validate finishes with every corpus that the ODIN importer makes, and reports no error; so it does with the file that is written.',
  'all blocks and options', 'Universally quantified over blocks and options; relates an importer, the serializer and the validator.', [ODN+':odin_igts', ODN+':make_igt_raw_tier', VLD+':validate_corpus', VLD+':validate_tier', VLD+':validate_item'])
p('C138','The validator says the same after saving and loading',
  'xigt validate says the same of equal corpora, and of the file that a corpus was saved to as of the corpus: the same report, or the same exception; and the command gives the same answer.',
  'all corpora, both formats and all indentations', 'Universally quantified over corpora; what the validator finds depends on what references lead to, not only on what is written in the file.', [VLD+':validate_corpus', VLD+':validate_item', VLD+':run', 'xigt/codecs/xigtxml.py:load', 'xigt/codecs/xigtjson.py:loads'])
p('C139','Sorting does not change what the validator finds',
  'If xigt validate finishes with a corpus, it finishes with the corpus that xigt sort makes of it, whatever the keys are, and at every level finds something in the one exactly if it does in the other; so it does around sort_tiers().',
  'all corpora and keys', 'Universally quantified over corpora, keys and references; relates two scripts, one of which looks things up by ID and by place.', ['xigt/scripts/xigt_sort.py:run', 'xigt/model.py:sort_tiers', VLD+':validate_corpus', VLD+':validate_tier', VLD+':validate_item', 'xigt/mixins.py:get'])
p('C140','The extensions of the schema allow what they are about',
  'What is written of a corpus is valid against syntax.rnc (dependencies.rnc) exactly if each tier has no type and is as in xigt.rnc, or is of the type syntax (dependencies) with its two references, its items have the references of the extension, and content, alignment and segmentation are blocked; a document both allow is one xigt.rnc allows.',
  'all corpora and indentations', 'Universally quantified over corpora; the grammars are nested and redefine each other\'s names, so that what they allow cannot be told from single documents.', ['schema/extensions/syntax.rnc', 'schema/extensions/dependencies.rnc', 'schema/xigt-tier.rnc', 'schema/xigt-item.rnc', 'schema/extensions/NOTES.md', XM+':encode'])
p('C141','Options that are not given have their documented defaults',
  'An importer uses the options that are given, and for the others the documented defaults; no configuration, null, an empty one and the documented one are the same, other options and the order do not matter, and options used again give the same; every configuration whose options are of the right kind and whose tiers have types can be used, and one that cannot leaves all files as they are.',
  'all configurations, input texts and file systems', 'Universally quantified over configurations and which options they have; the options are changed by the call, and alignments of markers are computed from three of them.', [TB+':xigt_import', TB+':_make_tb_alignments', ODN+':xigt_import', 'xigt/scripts/xigt_import.py:run'])
p('C142','Names do not matter',
  'When the IDs of an IGT are replaced by others, different ones by different ones and in references too, each item has the value it had, each ID has the references it had, renamed, and ancestors() and descendants() give the same tiers and items, step by step.',
  'all IGTs, renamings, reference attributes and objects to begin with', 'Universally quantified over renamings and IGTs; whether the characters of an ID matter cannot be told from examples whose IDs follow the usual conventions.', ['xigt/model.py:value', REF+':resolve', 'xigt/mixins.py:get', 'xigt/mixins.py:refresh_index', REF+':referents', REF+':referrers', 'xigt/query.py:ancestors', 'xigt/query.py:descendants'])
p('C143','Paths find the same in equal corpora',
  'A path finds the same in equal corpora, and in a corpus saved and loaded again: the same results in the same order, the same strings, the same first result, counts, unique results and tallies of the query script, and the same exceptions.',
  'all paths, all pairs of equal corpora, all corpora saved in XML or JSON with any indentation', 'Universally quantified over paths and corpora; equality leaves out namespaces and the order of attributes, and each step, predicate and operator has to be insensitive to them.', [XPP+':find', XPP+':findall', XPP+':iterfind', XPP+':_step', XPP+':_find_child', XPP+':_find_attr', XPP+':_make_predicate_test', 'xigt/scripts/xigt_query.py:process_agenda', 'xigt/codecs/xigtxml.py:loads', 'xigt/codecs/xigtjson.py:loads'])
p('C144','JSON documents are read as they say',
  'A JSON document, whoever wrote it, is read as the corpus it describes: every object has the ID, type, attributes, namespaces, text and contents that its members say, prefixes of names are resolved by the declarations around them; the order of members and members of other names do not matter; and it is read exactly if such a corpus can be constructed.',
  'all JSON values of null, strings, arrays and objects, and all texts', 'Universally quantified over documents, also those that the encoder never writes.', ['xigt/codecs/xigtjson.py:decode', 'xigt/codecs/xigtjson.py:decode_igt', 'xigt/codecs/xigtjson.py:decode_tier', 'xigt/codecs/xigtjson.py:decode_item', 'xigt/codecs/xigtjson.py:decode_metadata', 'xigt/codecs/xigtjson.py:decode_meta', 'xigt/codecs/xigtjson.py:decode_metachild', 'xigt/codecs/xigtjson.py:active_namespaces', 'xigt/codecs/xigtjson.py:loads'])
p('C145','Equal corpora are sorted to equal corpora',
  'The sort script gives equal corpora for equal corpora, whatever keys are given, and raises the same for both; so a corpus that was saved and loaded again is sorted as it would have been before.',
  'all lists of sort keys, all pairs of equal corpora, all corpora saved in XML with any indentation', 'Universally quantified over keys and corpora: the keys are found by paths, and the sort must not depend on anything that equality leaves out.', ['xigt/scripts/xigt_sort.py:run', 'xigt/scripts/xigt_sort.py:make_sortkey', XPP+':find', 'xigt/model.py:XigtCorpus.__eq__', 'xigt/codecs/xigtxml.py:loads'])
p('C146','Equal corpora are exported to the same LaTeX document',
  'Equal corpora are exported to the same LaTeX document, character by character, or exporting them raises the same; so a corpus gives the same document after it was saved and loaded again, if the format keeps its data.',
  'all pairs of equal corpora, all configurations and substitutions, all corpora saved in XML or JSON with any indentation', 'Universally quantified over corpora and configurations: aligning and merging columns has to be insensitive to what equality leaves out.', ['xigt/exporters/latex.py:export_corpus', 'xigt/exporters/latex.py:export_igt', 'xigt/exporters/latex.py:group_alignments', 'xigt/exporters/latex.py:align_tier', 'xigt/model.py:XigtCorpus.__eq__', 'xigt/codecs/xigtxml.py:loads', 'xigt/codecs/xigtjson.py:loads'])
p('C147','Sorting changes the order of what a path finds, and nothing else',
  'A path finds in a corpus that was sorted what it found before, but for the order: the same objects at the same places, the same strings, as many results; and it raises something in the one exactly if it does in the other.',
  'all paths of the grammar, all corpora, all lists of sort keys', 'Universally quantified over paths, corpora and keys: every step, function and predicate has to be insensitive to the order at three levels.', ['xigt/scripts/xigt_sort.py:run', XPP+':findall', XPP+':_step', XPP+':_find_descendant_or_self', XPP+':_find_referent', XPP+':_find_referrer', XPP+':_make_predicate_test', REF+':referents', REF+':referrers', 'xigt/model.py:get_any'])
p('C148','A partition has what paths found in its files',
  'A path finds in the files that a partition writes, taken together, what it finds in the files that were partitioned: the same objects in the same objects up to the IGT, and the same strings, as many of each; and it raises something in the one exactly if it does in the other.',
  'all paths of the grammar that lead into IGTs and stay there, all input files, all key paths', 'Universally quantified over paths, corpora and keys: no step, function or predicate may depend on the corpus an IGT is in or on its place there.', ['xigt/scripts/xigt_partition.py:run', 'xigt/scripts/xigt_partition.py:write', XPP+':findall', XPP+':_step', XPP+':_find_child', XPP+':_find_descendant_or_self', XPP+':_find_referent', XPP+':_find_referrer', XPP+':_make_predicate_test', 'xigt/model.py:get_any'])
p('C149','The schema of the Abkhaz example allows what the default schema does, and trees',
  'What is written of a corpus is valid against abkhaz-xigt.rnc exactly if it is as default-xigt.rnc says, but for notes vetted and judgment with a value, notes that are lists of phenomena, and tiers with trees, which tell where children are and whose items are nodes with children or leaves with the references of other items; so all that default-xigt.rnc allows is allowed, and every tier of the type syntax has children.',
  'all corpora and indentations', 'Universally quantified over corpora; the schema adds to names that the included files redefine, so that what it allows cannot be told from the one document of the example.', ['examples/abkhaz/abkhaz-xigt.rnc', 'schema/default-xigt.rnc', 'schema/xigt-tier.rnc', 'schema/xigt-item.rnc', 'schema/xigt-meta.rnc', XM+':encode_xigtcorpus'])
p('C150','Rewriting and sorting keep documents valid',
  'A document that one of the schemata allows is read exactly if no two siblings have the same identifier; and when it is read and written again, with any indentation, or read, sorted by any keys and written, the document that is written is valid against exactly those of the schemata that the first one was valid against.',
  'all documents that any of the schemata allows, all indentations, all lists of sort keys', 'Universally quantified over documents, keys and schemata: the reader, the sort script and the writer together have to keep whatever any of the grammars can see.', [XM+':default_decode', XM+':default_encode_xigtcorpus', XM+':loads', XM+':dumps', 'xigt/scripts/xigt_sort.py:run', 'schema/xigt-structure.rnc', 'schema/xigt.rnc', 'schema/default-xigt.rnc', 'examples/abkhaz/abkhaz-xigt.rnc'])
p('C151','A partition of valid documents is valid',
  'If every file that is partitioned is valid against a schema, then every file that the partition writes is valid against the same schema and can be read again, whatever the keys are and whichever IGTs of whichever files come together.',
  'all documents that the schema allows, all lists of files, key paths and output directories', 'Universally quantified over documents, keys and schemata: IGTs of several files with their own namespaces are written into new corpora.', ['xigt/scripts/xigt_partition.py:run', 'xigt/scripts/xigt_partition.py:write', XM+':loads', XM+':dumps', 'schema/xigt-structure.rnc', 'schema/xigt.rnc', 'schema/default-xigt.rnc', 'examples/abkhaz/abkhaz-xigt.rnc'])
p('C152','The command passes its arguments to its script',
  'xigt calls a script exactly if the first argument is its name, perhaps with -- before it; and it passes on all that follows, options too, as it is, but for -- directly after the name.',
  'all command lines', 'Universally quantified over lists of arguments of any form, also ones that look like options of the parser itself, since the arguments of scripts are matched by a pattern over the whole line.', ['xigt/main.py:main', 'xigt/main.py:cmdmap'])
p('C153','Scripts receive what their options say',
  'A command line on which options are written in full, in any order, apart, with =, glued to their letter or as repeated letters, around the files or before -- and the files, gives each script the files and, for each option, what is said of it: all values in order for keys and queries, the last value for the others, counts, or the default; sort ends with its usage if tier keys and tier dependencies are both given, import and export do if the input or the output is missing or a format is not known.',
  'all command lines of that form, of any length, for all six scripts', 'Universally quantified over sequences of options with arbitrary values and files: argparse decides what is an option, which value belongs to it and where files are by the whole line.', ['xigt/scripts/xigt_sort.py:main', 'xigt/scripts/xigt_partition.py:main', 'xigt/scripts/xigt_query.py:main', 'xigt/scripts/xigt_query.py:AgendaAction', 'xigt/scripts/xigt_import.py:main', 'xigt/scripts/xigt_export.py:main', 'xigt/scripts/xigt_validate.py:main'])
p('C154','What the schema for ODIN allows',
  'What is written of a corpus is valid against odin-xigt.rnc exactly if every IGT tells its document, its lines and their tags, every tier with a type has one of the ten types, with the attributes of that type and items as that type says, metadata of tiers is plain or all provenance or all of token types, and the rest is as in xigt.rnc; so a corpus with IGTs is never valid against this schema and another one.',
  'all corpora, indentations and readings of xsd:dateTime', 'Universally quantified over corpora, whatever made them; the grammar nests four grammars whose names refer to each other, so what it allows cannot be told from the documents at hand.', ['schema/extensions/odin-xigt.rnc', 'examples/odin/odin-xigt.rnc', 'schema/xigt-igt.rnc', 'schema/xigt-tier.rnc', 'schema/xigt-item.rnc', 'schema/xigt-metadata.rnc', 'schema/xigt-meta.rnc', XM+':encode_xigtcorpus'])
p('C155','What a script receives is on the command line',
  'Whatever a script receives after its arguments were taken, however they were written: an attribute is its default, or an argument of the command line says its option, in full or shortened so far that it is no other option, or by a letter among letters; and each string in it is an argument, or follows = or letters in one. So sort works in place only if an argument from --in to --in-place says so, and on a file that is an argument; import and export have as output only what -o or --output says; and partition writes to a directory that is an argument.',
  'all command lines, of all six scripts and every parser of that kind', 'Universally quantified over lists of arguments of any form: argparse abbreviates, splits letters and matches files by patterns over the whole line, and a wrong guess would overwrite files nobody named.', ['xigt/scripts/xigt_sort.py:main', 'xigt/scripts/xigt_partition.py:main', 'xigt/scripts/xigt_query.py:main', 'xigt/scripts/xigt_import.py:main', 'xigt/scripts/xigt_export.py:main', 'xigt/scripts/xigt_validate.py:main'])
p('C156','Files change only as the command line says',
  'Whatever arguments xigt is called with, and however it ends: query, validate, process, help and wrong command lines change nothing; sort changes at most a file that is an argument, and only if an argument from --in to --in-place is there; import and export change only the output that -o or --output says, import from ODIN also files in it and export to itsdb what is below it; partition only makes a directory that is an argument and was not there, and files in it.',
  'all command lines and file systems', 'Universally quantified over arguments and file systems, with failures at any point: tests look at files they expect to change, not at all others.', ['xigt/main.py:main', 'xigt/scripts/xigt_sort.py:run', 'xigt/scripts/xigt_partition.py:run', 'xigt/scripts/xigt_query.py:run', 'xigt/scripts/xigt_validate.py:run', 'xigt/scripts/xigt_import.py:run', 'xigt/scripts/xigt_export.py:run', 'xigt/scripts/xigt_process.py:main'])
p('C157','The command does what its command line says',
  'For command lines with options written in full: xigt sort sorts the file that is named by all keys that are given in their order and, if --in-place is anywhere on the line, replaces it by the sorted corpus and prints nothing, else prints that and changes nothing; partition puts the IGTs of the files that are named into the new directory that is named, by the last key path and default key; query asks of each file, in order, what the options ask, in order; validate prints the headings and ends with the status of the options and files; import and export make the last output that is said from the last input with the last configuration and format, and change nothing else. Sorting in place twice is as once.',
  'all command lines of that form, of any length, all file systems', 'Universally quantified over options in any order and form, files and file systems: tests call functions of scripts with ready arguments, so what is lost between the command line and the files is not seen.', ['xigt/main.py:main', 'xigt/scripts/xigt_sort.py:run', 'xigt/scripts/xigt_sort.py:main', 'xigt/scripts/xigt_partition.py:run', 'xigt/scripts/xigt_query.py:run', 'xigt/scripts/xigt_query.py:AgendaAction', 'xigt/scripts/xigt_validate.py:main', 'xigt/scripts/xigt_import.py:run', 'xigt/scripts/xigt_export.py:run'])
p('C158','Exactly JSON texts are read, each as what it says',
  'Of texts without numbers, true, false and halves of surrogate pairs, exactly those of the grammar of JSON are read, with any white space and any way to write the characters of strings, and each as the one value it says, where of members with the same key the last counts; all others are a ValueError. So a text is loaded as a corpus exactly if it is in the grammar and what it says is that corpus; two texts that say the same are loaded as the same; and what is dumped, with any indentation, is in the grammar.',
  'all texts', 'Universally quantified over texts, with nesting of any depth: tests load what dump has written, which is one of many texts for each value, and a few broken ones.', ['xigt/codecs/xigtjson.py:load', 'xigt/codecs/xigtjson.py:loads', 'xigt/codecs/xigtjson.py:dumps', 'xigt/codecs/xigtjson.py:decode'])
p('C159','XML documents are read as they say',
  'Exactly the texts in the grammar of documents are read in which all prefixes are declared, by declarations that are allowed, and no attribute has its name twice by two prefixes; each name is resolved by the innermost declaration around it. Each such document is loaded as the one corpus it says, if identifiers and names in that are valid: with the namespaces declared around each object, attributes but ID and type, text that is not blank, and children with the right names in their order, others being left out.',
  'all texts', 'Universally quantified over texts, with nesting of any depth: tests load documents that were written by dump or by hand for the test, none with prefixes declared twice.', [XM+':load', XM+':loads', XM+':default_decode', XM+':_qname_split', XM+':default_decode_xigtcorpus', XM+':default_decode_igt', XM+':default_decode_tier', XM+':default_decode_item', XM+':default_decode_metadata', XM+':default_decode_meta', XM+':default_decode_metachild'])
p('C160','The validator finds in a partition what it found in its files',
  'What the validator reports of the IGTs, tiers and items in the files of a partition is, IGT by IGT, what it reported of them in the files that were partitioned, each of them once, however the IGTs come together; so if it finds no problem in any of those files, it finds none in the files of the partition, also as they are written and read again, and the other way round.',
  'all files, keys, orders of files, levels of problems and depths of recursion', 'Universally quantified over corpora and keys: IGTs of several files come together in new corpora, and the validator remembers identifiers across IGTs.', ['xigt/scripts/xigt_partition.py:run', 'xigt/scripts/xigt_partition.py:write', 'xigt/scripts/xigt_validate.py:validate_corpus', 'xigt/scripts/xigt_validate.py:validate_igt', 'xigt/scripts/xigt_validate.py:id_is_unique', 'xigt/scripts/xigt_validate.py:run', XM+':load', XM+':dump'])
p('C161','What xigt validate prints tells what is wrong where',
  'xigt validate prints on its standard output, file by file in order, that a file is not XML, with its number and name, or a heading for each element in or below which something of the level or above was found, in the order of the document, and nothing else; what is printed for a file does not depend on later ones, and on earlier ones only by its number and their IDs. The status is 0 exactly if the program comes to its end with no heading printed. If two runs over as many files print the same, the same files are not XML and in each of the others the same elements are wrong.',
  'all lists of files, options and depths of recursion', 'Universally quantified over files and reports: that different reports are never printed alike cannot be seen from examples.', ['xigt/scripts/xigt_validate.py:run', 'xigt/scripts/xigt_validate.py:print_report', 'xigt/scripts/xigt_validate.py:format_heading', 'xigt/scripts/xigt_validate.py:filter_empty_reports', 'xigt/scripts/xigt_validate.py:main'])
p('C162','Queries print the same of saved and sorted corpora, and counts add up over a partition',
  'What xigt query prints, and how it ends, is the same for a corpus and for one that is equal to it or was loaded from its file. If a corpus is sorted, the heading and the table of results are the same, and the lines of the matches are the same in another order. The counts of a path in the files of a partition add up to those in the files that were partitioned.',
  'all corpora, lists of files, agendas, paths, descriptions, sort keys and partition keys', 'Universally quantified over corpora and paths: two programs are run one after the other, and each is tested on its own with a few corpora.', ['xigt/scripts/xigt_query.py:run', 'xigt/scripts/xigt_query.py:make_job', 'xigt/scripts/xigt_query.py:process_agenda', 'xigt/scripts/xigt_query.py:find_pattern', 'xigt/scripts/xigt_query.py:tally_pattern', 'xigt/scripts/xigt_query.py:unique_pattern', 'xigt/scripts/xigt_query.py:count_pattern', 'xigt/scripts/xigt_query.py:print_results', 'xigt/scripts/xigt_sort.py:run', 'xigt/scripts/xigt_partition.py:run', 'xigt/xigtpath.py:findall'])
p('C163','The input of an exported [incr tsdb()] item is its phrase or its words',
  'By default the i-input of an IGT is the text of the first phrase, or if there is no tier of phrases, the values of all its words, in order and with one blank between them, from which the words can be read if none is empty or has a blank in it. Each IGT gets one row, in order, with the numbers 0, 10, 20 and so on, and equal IGTs have the same input.',
  'all corpora and depths of recursion', 'Universally quantified over IGTs: the expression is a text in the configuration that is evaluated when rows are made, so no test sees what types its value can have.', ['xigt/exporters/itsdb.py:DEFAULT_CELLS', 'xigt/exporters/itsdb.py:prepare_config', 'xigt/exporters/itsdb.py:export_corpus', 'xigt/exporters/itsdb.py:export_igt', 'xigt/mixins.py:XigtContainerMixin.select', 'xigt/model.py:Item.get_content'])
p('C164','Exports of sorted and partitioned corpora have the same examples',
  'A corpus whose IGTs are sorted can be exported exactly if the corpus can. Its LaTeX document has the same block for each IGT, in the new order; its rows for [incr tsdb()] have the same cells for each IGT, numbered anew in the new order. If tiers are sorted, by keys or by dependencies, and those that are shown keep their order, the block of the IGT is the same. The files of a partition can be exported exactly if those that were partitioned can, and the documents have the same blocks.',
  'all corpora, sort keys, partition keys, configurations and depths of recursion', 'Universally quantified over corpora and keys: two programs are run one after the other, and no test compares what they make together.', ['xigt/exporters/latex.py:xigt_export', 'xigt/exporters/latex.py:export_corpus', 'xigt/exporters/latex.py:export_igt', 'xigt/exporters/itsdb.py:export_corpus', 'xigt/exporters/itsdb.py:export_igt', 'xigt/scripts/xigt_sort.py:run', 'xigt/scripts/xigt_partition.py:run', 'xigt/mixins.py:XigtContainerMixin.sort', 'xigt/model.py:Igt.sort_tiers'])
p('C165','Exporting to [incr tsdb()] makes one profile, of all rows, or none',
  'With a configuration as it should be, or without one, xigt export -f itsdb makes one profile, at the output, with the Relations file that the configuration names, or if it names none, that of LOGON if there is one, and with the rows of the IGTs in order, numbered as the configuration says; if an IGT cannot be read or exported, the library is given the rows before it and then the exception. Without a Relations file nothing is written at all, and if the configuration names a file the environment makes no difference. A profile was made if the status is 0.',
  'all configurations, corpora, environments and file systems', 'Universally quantified over configurations and file systems: the library is not installed for the tests, and which file is taken depends on an environment variable.', ['xigt/exporters/itsdb.py:xigt_export', 'xigt/exporters/itsdb.py:prepare_config', 'xigt/exporters/itsdb.py:export_corpus', 'xigt/exporters/itsdb.py:export_igt', 'xigt/scripts/xigt_export.py:run'])
p('C166','The log of sorting and partitioning says what is done, and changes nothing',
  'xigt sort logs nothing without -v. With -v it logs one line for each stage that is asked for (IGTs, tiers, items), in this order; if a stage fails its line is the last, and if the file cannot be read there is none. xigt partition by a key logs, with -v, one line for each file and then one for each key, in the order in which the keys are first met, with the number of different files that have an IGT with this key; if a file or a key fails its line is the last. Without -v it logs one error, if the output directory is there already or cannot be made, and otherwise nothing. More -v never show less. How the programs end, what they print and which files they change does not depend on the log.',
  'all command lines with options in full, corpora, keys and file systems', 'Universally quantified over files and keys: the tests do not look at the log, and its last line is most needed for input that no test has.', ['xigt/scripts/xigt_sort.py:run', 'xigt/scripts/xigt_sort.py:main', 'xigt/scripts/xigt_partition.py:run', 'xigt/scripts/xigt_partition.py:create_outdir', 'xigt/scripts/xigt_partition.py:index', 'xigt/scripts/xigt_partition.py:main'])
p('C167','One Toolbox record does not stop another from being imported',
  'A Toolbox record with a key is imported exactly if its key makes an identifier, Toolbox could align its fields, no tier is made twice, all tiers have descriptions and identifiers, and each line that is aligned with another has a cell for each token of it and tokens only where there is one (and something to find them in, if they are words or morphemes). Files after each other give their IGTs after each other. If all records with a key fit, there is one IGT for each; one that does not fit is left out, and the others are imported as without it.',
  'all records and options', 'Universally quantified over files of records: the importer handles two exceptions of one record, and which records raise others is not to be seen from examples.', ['xigt/importers/toolbox.py:toolbox_igts', 'xigt/importers/toolbox.py:make_igt', 'xigt/importers/toolbox.py:make_all_tiers', 'xigt/importers/toolbox.py:make_tier', 'xigt/importers/toolbox.py:make_phrase_tier', 'xigt/mixins.py:XigtContainerMixin.extend'])
p('C168','Every Toolbox record is imported or named in the log',
  'If importing a Toolbox file finishes, every record with a key is an IGT, or there is an error in the log with the identifier it would have had, both in the order of the records, and never both; with the verbosity of xigt import all these errors are shown, so IGTs and errors are as many as records with a key. There is no error exactly if all these records fit. If importing stops, the log is that of the records before the one that stops it, and names this one too. The log changes nothing.',
  'all records, options and verbosities', 'Universally quantified over files of records: the tests do not look at the log, and it is the only trace of records that are left out.', ['xigt/importers/toolbox.py:make_igt', 'xigt/importers/toolbox.py:toolbox_igts', 'xigt/scripts/xigt_import.py:main'])
p('C169','An Igt warns that an item already exists exactly if another item has its ID',
  'When an Igt is made, or its indices are refreshed, there is a warning that an item already exists for each item that differs from the last one before it with the same ID. So a new Igt warns of an ID exactly if two of its items with it are different; if the items have different IDs there is no warning, and if there was none there is none when it is refreshed again. There is a warning whenever two items have the same ID, and only then. Warnings change nothing.',
  'all igts', 'Universally quantified over igts: the tests do not look at warnings, and whether an item is the same as another is a comparison of all it contains.', ['xigt/model.py:Igt.refresh_indices', 'xigt/model.py:Igt.__init__', 'xigt/model.py:Item.__eq__'])
p('C170','What is imported from Toolbox is found by its name, and its references lead there and back',
  'In an IGT imported from Toolbox every tier and every item has an ID, get_any() finds it by this ID and get_item() finds every item; a tier either has no references, and neither do its items, or it has one, which leads to a tier of the IGT, and those of its items lead to items of this tier; what is referred to has among its referrers what refers to it. No two items have the same ID and nothing is warned of. It is the same in what is read when the corpus was written to a file.',
  'all records and options', 'Universally quantified over records and tier IDs: IDs of items are made of IDs of tiers and numbers, and whether two are the same depends on the number of tokens in a line.', ['xigt/importers/toolbox.py:toolbox_igts', 'xigt/importers/toolbox.py:make_all_tiers', 'xigt/importers/toolbox.py:make_tier', 'xigt/model.py:Igt.get_any', 'xigt/model.py:Igt.get_item', 'xigt/model.py:Igt.refresh_indices', 'xigt/ref.py:dereference', 'xigt/ref.py:referrers'])
p('C171','A line of an ODIN block is found by the ID of the block and its number',
  'In the corpus imported from ODIN, and in what is read when it was written to a file, the IGT with the ID of a block has a tier r, and this has for each line of the block an item r1, r2, ...; get_item() finds it too, its value is the text of the line, cleaned, and its attributes are what else the block says of the line. There are no other items, and nothing is warned of.',
  'all blocks and options', 'Universally quantified over blocks: the tests import no ODIN file and look up none of its lines.', ['xigt/importers/odin.py:odin_igts', 'xigt/importers/odin.py:make_igt', 'xigt/importers/odin.py:make_igt_raw_tier', 'xigt/mixins.py:XigtContainerMixin.get', 'xigt/model.py:Igt.get_item', 'xigt/model.py:Igt.refresh_indices', 'xigt/model.py:Item.value'])
p('C172','The Toolbox importer passes on what is warned of in a record, with the identifier of the record',
  'Every warning issued while a Toolbox record is imported, whether it becomes an IGT or is left out, is passed on, with the identifier of the record, in the order of the records. Catching the warnings and passing them on changes nothing.',
  'all records, options and warnings', 'Universally quantified over files of records and what is warned of in them: the tests import no Toolbox file and do not look at warnings.', ['xigt/importers/toolbox.py:make_igt', 'xigt/importers/toolbox.py:make_all_tiers', 'xigt/importers/toolbox.py:toolbox_igts', 'xigt/model.py:Igt.refresh_indices'])
p('C173','The deprecated text of a Metadata is its metas, and a string is put in an untyped Meta',
  'Metadata.text and Metadata.metas are the same: a Metadata made with a list as its text, or to whose text a list is assigned, contains this list, if these are Metas no two of which have the same ID, and otherwise there is an error; what it contained before is replaced, and nothing else of it changes. Assigning to text what it is changes nothing. A string is put in an untyped Meta, whose text it is. Giving both text and metas is an error. Each use of text gives a warning, and a string another.',
  'all lists of objects and strings', 'Universally quantified over lists and strings: the tests make no Metadata with text, and do not look at warnings.', ['xigt/metadata.py:Metadata.__init__', 'xigt/metadata.py:Metadata.metas', 'xigt/metadata.py:Metadata.text', 'xigt/metadata.py:metadata_text_warning', 'xigt/mixins.py:XigtContainerMixin.append', 'xigt/mixins.py:XigtContainerMixin.extend'])
p('C174','What is imported from Toolbox is exported to [incr tsdb()] with its words',
  'If records were imported from Toolbox, exporting them to [incr tsdb()] with the default cells succeeds and gives a row for each IGT, numbered 0, 10, 20, ...; its i-input is a string, the tokens of the line of words of the record joined by blanks, and the empty string if the record has no line of words. It is the same if the corpus was written to a file and read again before.',
  'all records and options with one tier of words', 'Universally quantified over records and options; the tests neither import from Toolbox nor export to [incr tsdb()].', ['xigt/importers/toolbox.py:toolbox_igts', 'xigt/importers/toolbox.py:make_all_tiers', 'xigt/importers/toolbox.py:make_phrase_tier', 'xigt/exporters/itsdb.py:export_corpus', 'xigt/exporters/itsdb.py:export_igt', 'xigt/exporters/itsdb.py:DEFAULT_CELLS'])
p('C175','The IGTs of a corpus are what was assigned, in every mode',
  'Assigning a list of IGTs to the igts of a corpus succeeds exactly if no ID is used twice in it, in every mode; then reading igts gives this list, now and later. Otherwise there is an error. Neither the mode nor the source of the corpus changes.',
  'all corpora, modes, sources and lists', 'Universally quantified over modes, sources and lists; the tests do not assign to igts in another mode than full.', ['xigt/model.py:XigtCorpus.igts', 'xigt/model.py:XigtCorpus.__iter__', 'xigt/model.py:XigtCorpus.__init__', 'xigt/mixins.py:XigtContainerMixin.extend', 'xigt/mixins.py:XigtContainerMixin.clear'])
p('C176','Adding to a container and removing from it undo each other',
  'After any history, if an object was appended to a container or inserted anywhere, removing it succeeds and every container is as before: the same objects in the same order, and the same answer to every subscription. Likewise if an object is removed and inserted again at its position, and if another object is assigned to a position and then the one that was there. A container that is cleared and extended by the objects it had is as before.',
  'all histories of calls on all containers, all objects and positions', 'Universally quantified over histories; the tests remove single objects of fixed containers.', ['xigt/mixins.py:XigtContainerMixin.append', 'xigt/mixins.py:XigtContainerMixin.insert', 'xigt/mixins.py:XigtContainerMixin.remove', 'xigt/mixins.py:XigtContainerMixin.__setitem__', 'xigt/mixins.py:XigtContainerMixin._create_id_mapping'])
