#!/usr/bin/env python3
"""Writes /verif/properties.jsonl. Kept so that the list has one source."""
import json, os
P = []
def p(id, title, statement, quantifier, why, anchors):
    P.append(dict(id=id, title=title, statement=statement, quantifier=quantifier,
                  why_tests_cant=why, anchors=anchors))

MIX='xigt/mixins.py'; MOD='xigt/model.py'; REF='xigt/ref.py'; MD='xigt/metadata.py'
Q='xigt/query.py'; XP='xigt/xigtpath.py'; J='xigt/codecs/xigtjson.py'; X='xigt/codecs/xigtxml.py'

# ---------------------------------------------------------------- containers
p('C01','Lookup by ID agrees with contents after any history',
  'After any sequence of append/insert/extend/remove/del/item-assignment/clear/sort/refresh_index calls on a container '
  '(corpus, igt, tier, metadata, meta), each of which may succeed or raise, c[some_id] returns an object that is in the container '
  'and has that ID, and every contained object with an ID is returned by c[its ID]; IDs not in the container raise KeyError. '
  '(Item assignment that raises is the one exception: see C03.)',
  'all finite histories of container operations, all objects, IDs and indices',
  'The index is a second copy of the contents; only an invariant over every interleaving of successful and failing calls shows the two never drift apart.',
  [MIX+':XigtContainerMixin.__getitem__', MIX+':XigtContainerMixin.append', MIX+':XigtContainerMixin.insert', MIX+':XigtContainerMixin.remove', MIX+':XigtContainerMixin.__setitem__', MIX+':XigtContainerMixin.clear'])
p('C02','No two contained objects share an ID',
  'In every state reached by such a history no two positions of a container hold objects with the same (non-None) ID; adding an object whose ID is taken raises XigtError.',
  'all histories of container operations', 'Uniqueness is an invariant over histories, a test only exercises one insertion order.',
  [MIX+':XigtContainerMixin._create_id_mapping'])
p('C03','A rejected mutation leaves the container as it was',
  'If append, insert, remove, del or item assignment raises (wrong type, duplicate ID, absent object, bad index) the sequence of contained objects and all lookups by ID are unchanged; if extend raises, exactly the objects before the offending one were added.',
  'all container states and all failing calls', 'Failure atomicity must hold at every failing point of every operation in every state.',
  [MIX+':XigtContainerMixin.__setitem__', MIX+':XigtContainerMixin.append', MIX+':XigtContainerMixin.extend', MIX+':XigtContainerMixin.remove'])
p('C04','Contained objects know their container',
  'Every object contained in a tier/igt/corpus reports that container as its tier/igt/corpus, for any history in which an object is put into one container only.',
  'all histories of container operations', 'The parent link is set by some mutators only; a test of append says nothing about the others or about sequences.',
  [MIX+':XigtContainerMixin.append', MIX+':XigtContainerMixin.__setitem__', MOD+':Item.tier', MOD+':Tier.igt'])
p('C05','Indexing semantics',
  'c[i] for an int follows Python list indexing (negative indices count from the end, IndexError outside); c["7"] for a numeral that is not an ID is positional; any other string that is not a contained ID raises KeyError; a valid ID is never interpreted as a position; get() returns the default exactly when c[...] raises KeyError or IndexError.',
  'all containers, all ints and all strings', 'The claim ranges over all strings: that no accepted ID can be parsed as an integer is a fact about the two grammars.',
  [MIX+':XigtContainerMixin.__getitem__', MIX+':XigtContainerMixin.get', REF+':id_re'])
p('C06','refresh_index repairs the index',
  'After arbitrary ID changes of contained objects and list operations that bypass the index, refresh_index() either raises XigtError, which happens exactly when two contained objects share an ID, or leaves lookups by ID exact.',
  'all container states, including ones no container operation reaches', 'Must hold from every corrupted state.',
  [MIX+':XigtContainerMixin.refresh_index', MIX+':XigtAttributeMixin.id'])
p('C07','del removes the addressed element',
  'del c[k] removes exactly the element at the addressed position and keeps the order of the others.',
  'all containers, all positions and IDs', 'Deletion goes through an equality search; whether it hits the addressed element depends on which elements compare equal.',
  [MIX+':XigtContainerMixin.__delitem__', MIX+':XigtContainerMixin.remove'])
p('C08','Containers are homogeneous',
  'A corpus only ever contains Igts, an igt Tiers, a tier Items, a metadata Metas, a meta MetaChilds; other objects are rejected with XigtStructureError.',
  'all histories of container operations', 'Type closure is an invariant over histories.',
  [MIX+':XigtContainerMixin._assert_type'])
p('C09','IDs accepted by the model can be referred to',
  'Every ID that can be given to an object (assignment does not raise ValueError) is recovered by ref.ids() when used as a reference expression.',
  'all strings', 'Quantifies over every string accepted by the ID check.',
  [REF+':id_re', REF+':ids', MIX+':XigtAttributeMixin.id'])
# ---------------------------------------------------------------- equality
p('C10','== is an equivalence on objects of one class',
  '== is reflexive, symmetric and transitive on objects of the same class, independent of the order of attribute dictionaries, of namespace maps and of parents, and equal containers have pairwise equal members in the same order.',
  'all objects of each class, of any size and depth', 'Algebraic law over all trees.',
  [MIX+':XigtContainerMixin.__eq__', MIX+':XigtAttributeMixin.__eq__', MOD+':Item.__eq__', MD+':Meta.__eq__', MD+':MetaChild.__eq__'])
p('C11','== is symmetric across classes',
  'x == y and y == x give the same answer for objects of any two classes of the model.',
  'all pairs of objects', 'Needs all pairs of classes and states.',
  [MOD+':Item.__eq__', MD+':Meta.__eq__', MD+':MetaChild.__eq__', MIX+':XigtContainerMixin.__eq__'])
p('C12','!= is the negation of ==',
  'x != y is True exactly when x == y is False.',
  'all pairs of objects of one class', 'Algebraic law over all pairs; the two operators come from different base classes.',
  [MIX+':XigtContainerMixin', MIX+':XigtContainerMixin.__eq__', MOD+':Item.__eq__'])
# ---------------------------------------------------------------- reference expressions
p('C13','ids() lists the referenced IDs in order',
  'For every well-formed reference expression (selections of IDs with optional span lists, joined by "+" or ",", or a whitespace separated ID list) ref.ids() returns precisely the IDs in order, with repetitions; for any string at all, everything it returns is an ID occurring in the string.',
  'all reference expressions of any length; all strings', 'Parsing law over an infinite language.',
  [REF+':ids', REF+':id_re'])
p('C14','selections() loses nothing',
  'Concatenating selections(e) (with delimiters) gives e back for every string without newlines; without delimiters exactly the selections remain.',
  'all strings', 'Universal statement about a backtracking regex over all strings.',
  [REF+':selections', REF+':robust_ref_re'])
p('C15','expand() and compress() are mutually inverse normalisations',
  'On well-formed expressions expand and compress are idempotent, expand(compress(e)) = expand(e), compress(expand(e)) = compress(e), expand yields one span per selection, and compress leaves no two adjacent span selections of one ID.',
  'all well-formed reference expressions', 'Algebraic laws over an infinite language.',
  [REF+':expand', REF+':compress', REF+':robust_ref_re', REF+':span_re'])
p('C16','spans() enumerates the spans',
  'spans(e) on a well-formed expression lists every span as id[start:end] (or the bare id) in order with the delimiters between them.',
  'all well-formed reference expressions', 'Parsing law over an infinite language.', [REF+':spans'])
p('C17','resolve() computes the documented string',
  'For a well-formed expression whose IDs exist in the container, resolve() returns the concatenation, in order, of the selected (sub)strings of the values of the referred items, with "+" joining directly and "," joining with one space, spans following Python slicing, absent values counting as empty.',
  'all well-formed expressions, containers and item values', 'Semantics over an infinite language and all contents.',
  [REF+':resolve', REF+':selection_re', REF+':span_re', REF+':delimiters'])
p('C18','Expanding or compressing never changes what is selected',
  'resolve(c, expand(e)) = resolve(c, compress(e)) = resolve(c, e) for every well-formed e and every container, including the failing cases.',
  'all well-formed expressions and containers', 'Semantic equivalence over all inputs.',
  [REF+':resolve', REF+':expand', REF+':compress'])
p('C19','A dangling reference is an error',
  'resolve() raises XigtStructureError whenever the expression refers to an ID that is not in the container and all earlier selections resolve; it never returns a partial string.',
  'all well-formed expressions and containers', 'Ranges over every position of the dangling ID.', [REF+':resolve'])
# ---------------------------------------------------------------- values
p('C20','Explicit text wins, then content, then segmentation',
  'Item.value() is the item\'s text when it has one (whatever references it carries), otherwise the resolution of its content reference, otherwise of its segmentation reference, otherwise None.',
  'all items in all igts', 'Priority rule over all attribute combinations and contents.', [MOD+':Item.value', MOD+':Item.resolve_ref'])
p('C21','value() terminates exactly when no reference chain is circular',
  'For an igt in which following value-giving references never cycles, value() of every item terminates (with a value or a documented error); an item on a reference cycle exhausts the stack for every stack size.',
  'all igts, all recursion limits', 'Termination over all reference graphs.', [MOD+':Item.value', REF+':resolve'])
p('C22','Unresolvable item references raise the documented errors',
  'resolve_ref raises KeyError if the item or its tier lacks the attribute, XigtStructureError if the item has no tier, the tier no igt, or the referred tier or item does not exist, and in no other case before evaluating the referred items.',
  'all items, tiers, igts', 'Complete case analysis over all states.', [MOD+':Item.resolve_ref'])
# ---------------------------------------------------------------- references
p('C23','referents() and referrers() are inverse to each other',
  'Among objects of one level (tiers or items), b is listed in referrers(igt, a)[attr] exactly when a is listed in referents(igt, b)[attr]; order is document order and no referrer is listed twice.',
  'all igts, IDs and reference attributes', 'Relational law over all igts.', [REF+':referents', REF+':referrers'])
p('C24','Cached references are exact after refresh_indices()',
  'Right after construction or refresh_indices(), igt.referents(id) equals the freshly computed referents, and igt.referrers(id)[attr] contains b exactly when a is among b\'s referents; get_item finds each current item.',
  'all igts', 'Quantifies over all contents.', [MOD+':Igt.refresh_indices', MOD+':Igt.referents', MOD+':Igt.referrers', MOD+':Igt.get_item'])
p('C25','After removing an item and refreshing, it is no longer found',
  'get_item(id) after refresh_indices() returns only items currently in the igt.',
  'all histories of item additions/removals and refreshes', 'Property of histories, not of one call.', [MOD+':Igt.refresh_indices', MOD+':Igt.get_item'])
p('C26','ancestors() terminates',
  'query.ancestors yields finitely many steps for every igt, including ones whose tiers refer to each other in a cycle.',
  'all igts', 'Termination over all reference graphs, including cyclic ones.', [Q+':ancestors'])
p('C27','ancestors() follows the references',
  'Each step of ancestors goes from a tier over its first present reference attribute to the tier it refers to, with exactly the items referred to by the items of the previous step, in document order.',
  'all igts and start objects', 'Universally quantified over contents and steps.', [Q+':ancestors'])
p('C28','descendants() terminates',
  'query.descendants yields finitely many steps for every igt, including cyclic ones, with at most (#tiers * #refattrs) * #tiers steps.',
  'all igts', 'Termination over all reference graphs.', [Q+':descendants'])
p('C29','descendants() is sound and complete for tiers',
  'Every step of descendants is a real reference between the two tiers with exactly the referring items, and (follow="all") every tier that refers directly or indirectly to the start tier is reached.',
  'all igts and start objects', 'Graph reachability over all igts.', [Q+':descendants', REF+':referrers'])
p('C30','sort_tiers puts referred tiers first',
  'When tier references exist and are not circular, sort_tiers permutes the tiers so that each tier stands after the tier its highest-priority reference attribute points to, and sorting again changes nothing.',
  'all igts with existing, acyclic tier references', 'Ordering law over all graphs.', [MOD+':Igt.sort_tiers'])
p('C31','sort_tiers terminates',
  'sort_tiers terminates on every igt.', 'all igts', 'Termination over all reference graphs.', [MOD+':Igt.sort_tiers'])
# ---------------------------------------------------------------- attributes
p('C32','Inherited attributes come from the nearest ancestor',
  'get_attribute(key, default, inherit=True) returns the value on the object or else on its nearest ancestor that has it, else the default; with inherit=False only the object itself is consulted.',
  'all ancestor chains of any length', 'Induction over chains.', [MIX+':XigtAttributeMixin.get_attribute'])
p('C33','Inheritance also works for namespaced attributes',
  'get_attribute(key, inherit=True, namespace=ns) finds the namespaced attribute on an ancestor, like get_attribute("prefix:key", inherit=True) does.',
  'all ancestor chains and namespace maps', 'Induction over chains.', [MIX+':XigtAttributeMixin.get_attribute'])
p('C34','Namespace maps are inherited',
  'obj.nsmap is the map of the nearest object on the ancestor chain (starting with itself) that has one, or empty.',
  'all ancestor chains', 'Induction over chains.', [MIX+':XigtAttributeMixin.nsmap'])
p('C35','get_meta finds the nearest matching metas',
  'get_meta(key, conditions) returns, in document order, all metas of that type satisfying the conditions in the "xigt-meta" metadata of the object, or if there are none those of the nearest ancestor, or the default.',
  'all ancestor chains and metadata', 'Induction over chains.', [MD+':XigtMetadataMixin.get_meta'])
# ---------------------------------------------------------------- corpus modes
p('C36','All loading modes give the same IGTs',
  'The first complete iteration over a corpus built from the same IGT source yields the same sequence of IGTs in full, incremental and transient mode.',
  'all IGT sequences', 'Universally quantified over sources.', [MOD+':XigtCorpus.__iter__', MOD+':XigtCorpus.__init__'])
p('C37','Incremental keeps, transient forgets',
  'For any history of (complete or abandoned) iterations: in incremental mode the IGTs held are exactly those seen so far and later complete iterations after exhaustion yield all of them again; in transient mode nothing is held and nothing is yielded after exhaustion; no IGT is ever pulled from the source twice.',
  'all histories of complete and abandoned iterations', 'A history property.', [MOD+':XigtCorpus.__iter__'])
# ---------------------------------------------------------------- codecs
p('C38','JSON round trip',
  'Decoding the JSON encoding of a corpus gives an equal corpus.', 'all corpora', 'Round-trip law over all corpora.',
  [J+':encode', J+':decode', J+':_make_obj'])
p('C39','JSON keeps namespaced attributes',
  'An attribute in a namespace survives a JSON round trip: it is still found under its namespace.',
  'all corpora with namespaced attributes', 'Round-trip law over all corpora.', [J+':_make_obj', J+':decode_metachild'])
p('C40','XML round trip',
  'Loading the XML serialisation of a corpus gives an equal corpus.', 'all corpora', 'Round-trip law over all corpora.',
  [X+':_build_corpus', X+':default_decode', X+':default_decode_xigtcorpus', X+':_indent'])
p('C41','Indentation does not change the data',
  'The corpus read back does not depend on the indent argument (any width, or None) used when writing.',
  'all corpora and all indent values', 'Quantifies over all trees and widths.', [X+':_indent', X+':default_decode_meta', X+':default_decode_item'])
p('C42','Streaming does not change the result',
  'The loaded corpus does not depend on how the parser chunks its input, nor on mode, for documents in the layout the writer produces (metadata before IGTs).',
  'all documents and all chunkings', 'Schedules of the incremental parser.', [X+':default_decode', X+':iter_elements', X+':ns_iterparse'])
# ---------------------------------------------------------------- xigtpath
p('C43','find is the first result of findall',
  'find(obj, path) is the first element of findall(obj, path), None if there is none, for every path on which findall does not raise.',
  'all objects and paths', 'Universally quantified over paths.', [XP+':find', XP+':findall'])
p('C44','Path steps compose',
  'findall(x, "A/B") lists, for each result y of findall(x, "A") in order, the results of findall(y, "B"), for steps of every axis.',
  'all objects and paths', 'Compositional semantics over all paths.', [XP+':_step', XP+':_expr', XP+':_find_child'])
p('C45','The descendant axis is complete and in document order',
  '"//name" yields every descendant-or-self element with that name exactly once in document order (metadata before contents).',
  'all trees', 'Induction over trees.', [XP+':_find_descendant_or_self'])
p('C46','Predicates filter',
  'step[p="v"] keeps, in order, exactly the results for which some result of p equals v; step[p!="v"] those for which none does; step[p] those for which p has a result.',
  'all objects, paths and values', 'Universally quantified over paths.', [XP+':_make_predicate_test'])
p('C47','Alternatives concatenate',
  '"(A|B)" yields for each context object the results of A followed by those of B, for every context, whatever the data.',
  'all objects and paths', 'Universally quantified over data.', [XP+':_disjunction'])
p('C48','Names in paths are taken literally',
  'A path built from element and attribute names selects by exactly these names.',
  'all names usable in documents', 'Tokenisation law over all names.', [XP+':tokenize', XP+':xp_tokenizer_re'])
# ---------------------------------------------------------------- scripts
p('C49','Partitioning loses and duplicates nothing',
  'After xigt partition every input IGT is in exactly one output file, the one named after its key.',
  'all input collections and key functions', 'Conservation law over all inputs.', ['xigt/scripts/xigt_partition.py:run', 'xigt/scripts/xigt_partition.py:write', 'xigt/scripts/xigt_partition.py:index'])
p('C50','Natural sort keys are always comparable',
  'xigt sort orders objects by their key strings with embedded numerals compared numerically, never failing on mixed text and numerals.',
  'all key strings and lists of sort keys', 'Total-order law over all strings.', ['xigt/scripts/xigt_sort.py:make_sortkey'])
p('C51','Query counts add up',
  'The tally counts of xigt query sum to the number of matches of the query, each group once; unique counts the distinct matches.',
  'all result lists', 'Conservation law over all inputs.', ['xigt/scripts/xigt_query.py:tally_pattern', 'xigt/scripts/xigt_query.py:unique_pattern', 'xigt/scripts/xigt_query.py:count_pattern'])
p('C52','The validator passes exactly clean reports',
  'xigt validate succeeds exactly when no checked file has a problem at or above the reporting level, anywhere in the tree of reports.',
  'all report trees and levels', 'Induction over trees.', ['xigt/scripts/xigt_validate.py:filter_empty_reports', 'xigt/scripts/xigt_validate.py:report_is_empty', 'xigt/scripts/xigt_validate.py:run'])
p('C53','The validator reports overlapping spans',
  'An alignment expression that selects a character of an item twice is reported.', 'all alignment expressions', 'Universally quantified over expressions.',
  ['xigt/scripts/xigt_validate.py:algnexpr_spans_do_not_overlap'])
p('C54','The validator reports missing referents and duplicate IDs',
  'A tier reference to an unknown tier, an item reference to an unknown item of the referred tier, an item reference attribute missing on the tier, and a repeated igt or item ID each yield an ERROR record on the object concerned, and only those do.',
  'all corpora', 'Universally quantified over corpora.', ['xigt/scripts/xigt_validate.py:validate_corpus', 'xigt/scripts/xigt_validate.py:validate_igt', 'xigt/scripts/xigt_validate.py:validate_tier', 'xigt/scripts/xigt_validate.py:validate_item'])
# ---------------------------------------------------------------- importers / exporters
p('C55','Imported words select themselves',
  'For words imported from Toolbox, the segmentation reference of the k-th word selects exactly the text of that word in the phrase item.',
  'all token lists', 'Arithmetic over all token lists.', ['xigt/importers/toolbox.py:align_word', 'xigt/importers/toolbox.py:make_phrase_tier', 'xigt/importers/toolbox.py:make_tier'])
p('C56','Imported morpheme spans lie in their word',
  'The span computed for a morpheme satisfies 0 <= begin <= end <= length of the word.',
  'all words and morpheme lists', 'Arithmetic over all inputs.', ['xigt/importers/toolbox.py:align_word'])
p('C57','Respacing keeps byte columns',
  'After decoding a Toolbox line each token starts at the column equal to its byte offset in the file, whatever multi-byte characters precede it.',
  'all byte lines and encodings', 'Universally quantified over byte strings.', ['xigt/importers/toolbox.py:_respace_decode'])
p('C58','The ODIN importer produces only XML characters and keeps valid ones',
  'Cleaned text has the same length, contains only characters legal in XML 1.0, and legal characters are unchanged.',
  'all strings', 'Universally quantified over strings.', ['xigt/importers/odin.py:replace_invalid_xml_chars', 'xigt/importers/odin.py:invalid_char_re'])
p('C59','LaTeX escaping is character-wise and unambiguous',
  'Escaping replaces each special character independently of its neighbours, never re-escapes its own output, and different strings have different escapes.',
  'all strings', 'Algebraic law over all strings; the code is a sequence of global replacements.', ['xigt/exporters/latex.py:escape', 'xigt/exporters/latex.py:LATEX_CHARMAP'])
p('C60','The LaTeX grid shows every item once',
  'Grouping aligned tiers into columns keeps every item of every tier exactly once, in order, and gives every column one row per tier.',
  'all tier lists with references to the previous tier in order', 'Loop invariant over all tiers.', ['xigt/exporters/latex.py:group_alignments', 'xigt/exporters/latex.py:align_tier', 'xigt/exporters/latex.py:merge_columns'])
p('C61','[incr tsdb()] rows are numbered distinctly and use their own cell mapper',
  'Exported rows have distinct increasing i-ids and each configured cell is computed by its own expression.',
  'all corpora and configurations', 'Quantifies over all configurations.', ['xigt/exporters/itsdb.py:export_corpus', 'xigt/exporters/itsdb.py:prepare_config', 'xigt/exporters/itsdb.py:export_igt'])
p('C62','select() is an order-preserving filter',
  'select(**criteria) yields, in order, exactly the contained objects all of whose named members equal the given values, a namespace prefix being replaced by its URI.',
  'all containers and criteria', 'Universally quantified.', [MIX+':XigtContainerMixin.select'])
p('C63','segmentation excludes content and alignment at construction',
  'Constructing a tier or item with a non-empty segmentation together with a non-empty content or alignment argument raises XigtError; every other combination is stored as given.',
  'all argument combinations', 'Complete case analysis.', [MIX+':XigtReferenceAttributeMixin.__init__'])
for i, d in enumerate(P): assert d['id'] == 'C%02d' % (i+1), d['id']
exec(open(os.path.join(os.path.dirname(__file__), 'more_props.py')).read()) if os.path.exists(os.path.join(os.path.dirname(__file__), 'more_props.py')) else None
with open(os.path.join(os.path.dirname(__file__), '..', 'properties.jsonl'), 'w') as f:
    for d in P: f.write(json.dumps(d, ensure_ascii=False) + '\n')
