{"id": "C01", "title": "Lookup by ID agrees with contents after any history", "statement": "After any sequence of append/insert/extend/remove/del/item-assignment/clear/sort/refresh_index calls on a container (corpus, igt, tier, metadata, meta), each of which may succeed or raise, c[some_id] returns an object that is in the container and has that ID, and every contained object with an ID is returned by c[its ID]; IDs not in the container raise KeyError. (Item assignment that raises is the one exception: see C03.)", "quantifier": "all finite histories of container operations, all objects, IDs and indices", "why_tests_cant": "The index is a second copy of the contents; only an invariant over every interleaving of successful and failing calls shows the two never drift apart.", "anchors": ["xigt/mixins.py:XigtContainerMixin.__getitem__", "xigt/mixins.py:XigtContainerMixin.append", "xigt/mixins.py:XigtContainerMixin.insert", "xigt/mixins.py:XigtContainerMixin.remove", "xigt/mixins.py:XigtContainerMixin.__setitem__", "xigt/mixins.py:XigtContainerMixin.clear"]}
{"id": "C02", "title": "No two contained objects share an ID", "statement": "In every state reached by such a history no two positions of a container hold objects with the same (non-None) ID; adding an object whose ID is taken raises XigtError.", "quantifier": "all histories of container operations", "why_tests_cant": "Uniqueness is an invariant over histories, a test only exercises one insertion order.", "anchors": ["xigt/mixins.py:XigtContainerMixin._create_id_mapping"]}
{"id": "C03", "title": "A rejected mutation leaves the container as it was", "statement": "If append, insert, remove, del or item assignment raises (wrong type, duplicate ID, absent object, bad index) the sequence of contained objects and all lookups by ID are unchanged; if extend raises, exactly the objects before the offending one were added.", "quantifier": "all container states and all failing calls", "why_tests_cant": "Failure atomicity must hold at every failing point of every operation in every state.", "anchors": ["xigt/mixins.py:XigtContainerMixin.__setitem__", "xigt/mixins.py:XigtContainerMixin.append", "xigt/mixins.py:XigtContainerMixin.extend", "xigt/mixins.py:XigtContainerMixin.remove"]}
{"id": "C04", "title": "Contained objects know their container", "statement": "Every object contained in a tier/igt/corpus reports that container as its tier/igt/corpus, for any history in which an object is put into one container only.", "quantifier": "all histories of container operations", "why_tests_cant": "The parent link is set by some mutators only; a test of append says nothing about the others or about sequences.", "anchors": ["xigt/mixins.py:XigtContainerMixin.append", "xigt/mixins.py:XigtContainerMixin.__setitem__", "xigt/model.py:Item.tier", "xigt/model.py:Tier.igt"]}
{"id": "C05", "title": "Indexing semantics", "statement": "c[i] for an int follows Python list indexing (negative indices count from the end, IndexError outside); c[\"7\"] for a numeral that is not an ID is positional; any other string that is not a contained ID raises KeyError; a valid ID is never interpreted as a position; get() returns the default exactly when c[...] raises KeyError or IndexError.", "quantifier": "all containers, all ints and all strings", "why_tests_cant": "The claim ranges over all strings: that no accepted ID can be parsed as an integer is a fact about the two grammars.", "anchors": ["xigt/mixins.py:XigtContainerMixin.__getitem__", "xigt/mixins.py:XigtContainerMixin.get", "xigt/ref.py:id_re"]}
{"id": "C06", "title": "refresh_index repairs the index", "statement": "After arbitrary ID changes of contained objects and list operations that bypass the index, refresh_index() either raises XigtError, which happens exactly when two contained objects share an ID, or leaves lookups by ID exact.", "quantifier": "all container states, including ones no container operation reaches", "why_tests_cant": "Must hold from every corrupted state.", "anchors": ["xigt/mixins.py:XigtContainerMixin.refresh_index", "xigt/mixins.py:XigtAttributeMixin.id"]}
{"id": "C07", "title": "del removes the addressed element", "statement": "del c[k] removes exactly the element at the addressed position and keeps the order of the others.", "quantifier": "all containers, all positions and IDs", "why_tests_cant": "Deletion goes through an equality search; whether it hits the addressed element depends on which elements compare equal.", "anchors": ["xigt/mixins.py:XigtContainerMixin.__delitem__", "xigt/mixins.py:XigtContainerMixin.remove"]}
{"id": "C08", "title": "Containers are homogeneous", "statement": "A corpus only ever contains Igts, an igt Tiers, a tier Items, a metadata Metas, a meta MetaChilds; other objects are rejected with XigtStructureError.", "quantifier": "all histories of container operations", "why_tests_cant": "Type closure is an invariant over histories.", "anchors": ["xigt/mixins.py:XigtContainerMixin._assert_type"]}
{"id": "C09", "title": "IDs accepted by the model can be referred to", "statement": "Every ID that can be given to an object (assignment does not raise ValueError) is recovered by ref.ids() when used as a reference expression.", "quantifier": "all strings", "why_tests_cant": "Quantifies over every string accepted by the ID check.", "anchors": ["xigt/ref.py:id_re", "xigt/ref.py:ids", "xigt/mixins.py:XigtAttributeMixin.id"]}
{"id": "C10", "title": "== is an equivalence on objects of one class", "statement": "== is reflexive, symmetric and transitive on objects of the same class, independent of the order of attribute dictionaries, of namespace maps and of parents, and equal containers have pairwise equal members in the same order.", "quantifier": "all objects of each class, of any size and depth", "why_tests_cant": "Algebraic law over all trees.", "anchors": ["xigt/mixins.py:XigtContainerMixin.__eq__", "xigt/mixins.py:XigtAttributeMixin.__eq__", "xigt/model.py:Item.__eq__", "xigt/metadata.py:Meta.__eq__", "xigt/metadata.py:MetaChild.__eq__"]}
{"id": "C11", "title": "== is symmetric across classes", "statement": "x == y and y == x give the same answer for objects of any two classes of the model.", "quantifier": "all pairs of objects", "why_tests_cant": "Needs all pairs of classes and states.", "anchors": ["xigt/model.py:Item.__eq__", "xigt/metadata.py:Meta.__eq__", "xigt/metadata.py:MetaChild.__eq__", "xigt/mixins.py:XigtContainerMixin.__eq__"]}
{"id": "C12", "title": "!= is the negation of ==", "statement": "x != y is True exactly when x == y is False.", "quantifier": "all pairs of objects of one class", "why_tests_cant": "Algebraic law over all pairs; the two operators come from different base classes.", "anchors": ["xigt/mixins.py:XigtContainerMixin", "xigt/mixins.py:XigtContainerMixin.__eq__", "xigt/model.py:Item.__eq__"]}
{"id": "C13", "title": "ids() lists the referenced IDs in order", "statement": "For every well-formed reference expression (selections of IDs with optional span lists, joined by \"+\" or \",\", or a whitespace separated ID list) ref.ids() returns precisely the IDs in order, with repetitions; for any string at all, everything it returns is an ID occurring in the string.", "quantifier": "all reference expressions of any length; all strings", "why_tests_cant": "Parsing law over an infinite language.", "anchors": ["xigt/ref.py:ids", "xigt/ref.py:id_re"]}
{"id": "C14", "title": "selections() loses nothing", "statement": "Concatenating selections(e) (with delimiters) gives e back for every string without newlines; without delimiters exactly the selections remain.", "quantifier": "all strings", "why_tests_cant": "Universal statement about a backtracking regex over all strings.", "anchors": ["xigt/ref.py:selections", "xigt/ref.py:robust_ref_re"]}
{"id": "C15", "title": "expand() and compress() are mutually inverse normalisations", "statement": "On well-formed expressions expand and compress are idempotent, expand(compress(e)) = expand(e), compress(expand(e)) = compress(e), expand yields one span per selection, and compress leaves no two adjacent span selections of one ID.", "quantifier": "all well-formed reference expressions", "why_tests_cant": "Algebraic laws over an infinite language.", "anchors": ["xigt/ref.py:expand", "xigt/ref.py:compress", "xigt/ref.py:robust_ref_re", "xigt/ref.py:span_re"]}
{"id": "C16", "title": "spans() enumerates the spans", "statement": "spans(e) on a well-formed expression lists every span as id[start:end] (or the bare id) in order with the delimiters between them.", "quantifier": "all well-formed reference expressions", "why_tests_cant": "Parsing law over an infinite language.", "anchors": ["xigt/ref.py:spans"]}
{"id": "C17", "title": "resolve() computes the documented string", "statement": "For a well-formed expression whose IDs exist in the container, resolve() returns the concatenation, in order, of the selected (sub)strings of the values of the referred items, with \"+\" joining directly and \",\" joining with one space, spans following Python slicing, absent values counting as empty.", "quantifier": "all well-formed expressions, containers and item values", "why_tests_cant": "Semantics over an infinite language and all contents.", "anchors": ["xigt/ref.py:resolve", "xigt/ref.py:selection_re", "xigt/ref.py:span_re", "xigt/ref.py:delimiters"]}
{"id": "C18", "title": "Expanding or compressing never changes what is selected", "statement": "resolve(c, expand(e)) = resolve(c, compress(e)) = resolve(c, e) for every well-formed e and every container, including the failing cases.", "quantifier": "all well-formed expressions and containers", "why_tests_cant": "Semantic equivalence over all inputs.", "anchors": ["xigt/ref.py:resolve", "xigt/ref.py:expand", "xigt/ref.py:compress"]}
{"id": "C19", "title": "A dangling reference is an error", "statement": "resolve() raises XigtStructureError whenever the expression refers to an ID that is not in the container and all earlier selections resolve; it never returns a partial string.", "quantifier": "all well-formed expressions and containers", "why_tests_cant": "Ranges over every position of the dangling ID.", "anchors": ["xigt/ref.py:resolve"]}
{"id": "C20", "title": "Explicit text wins, then content, then segmentation", "statement": "Item.value() is the item's text when it has one (whatever references it carries), otherwise the resolution of its content reference, otherwise of its segmentation reference, otherwise None.", "quantifier": "all items in all igts", "why_tests_cant": "Priority rule over all attribute combinations and contents.", "anchors": ["xigt/model.py:Item.value", "xigt/model.py:Item.resolve_ref"]}
{"id": "C21", "title": "value() terminates exactly when no reference chain is circular", "statement": "For an igt in which following value-giving references never cycles, value() of every item terminates (with a value or a documented error); an item on a reference cycle exhausts the stack for every stack size.", "quantifier": "all igts, all recursion limits", "why_tests_cant": "Termination over all reference graphs.", "anchors": ["xigt/model.py:Item.value", "xigt/ref.py:resolve"]}
{"id": "C22", "title": "Unresolvable item references raise the documented errors", "statement": "resolve_ref raises KeyError if the item or its tier lacks the attribute, XigtStructureError if the item has no tier, the tier no igt, or the referred tier or item does not exist, and in no other case before evaluating the referred items.", "quantifier": "all items, tiers, igts", "why_tests_cant": "Complete case analysis over all states.", "anchors": ["xigt/model.py:Item.resolve_ref"]}
{"id": "C23", "title": "referents() and referrers() are inverse to each other", "statement": "Among objects of one level (tiers or items), b is listed in referrers(igt, a)[attr] exactly when a is listed in referents(igt, b)[attr]; order is document order and no referrer is listed twice.", "quantifier": "all igts, IDs and reference attributes", "why_tests_cant": "Relational law over all igts.", "anchors": ["xigt/ref.py:referents", "xigt/ref.py:referrers"]}
{"id": "C24", "title": "Cached references are exact after refresh_indices()", "statement": "Right after construction or refresh_indices(), igt.referents(id) equals the freshly computed referents, and igt.referrers(id)[attr] contains b exactly when a is among b's referents; get_item finds each current item.", "quantifier": "all igts", "why_tests_cant": "Quantifies over all contents.", "anchors": ["xigt/model.py:Igt.refresh_indices", "xigt/model.py:Igt.referents", "xigt/model.py:Igt.referrers", "xigt/model.py:Igt.get_item"]}
{"id": "C25", "title": "After removing an item and refreshing, it is no longer found", "statement": "get_item(id) after refresh_indices() returns only items currently in the igt.", "quantifier": "all histories of item additions/removals and refreshes", "why_tests_cant": "Property of histories, not of one call.", "anchors": ["xigt/model.py:Igt.refresh_indices", "xigt/model.py:Igt.get_item"]}
{"id": "C26", "title": "ancestors() terminates", "statement": "query.ancestors yields finitely many steps for every igt, including ones whose tiers refer to each other in a cycle.", "quantifier": "all igts", "why_tests_cant": "Termination over all reference graphs, including cyclic ones.", "anchors": ["xigt/query.py:ancestors"]}
{"id": "C27", "title": "ancestors() follows the references", "statement": "Each step of ancestors goes from a tier over its first present reference attribute to the tier it refers to, with exactly the items referred to by the items of the previous step, in document order.", "quantifier": "all igts and start objects", "why_tests_cant": "Universally quantified over contents and steps.", "anchors": ["xigt/query.py:ancestors"]}
{"id": "C28", "title": "descendants() terminates", "statement": "query.descendants yields finitely many steps for every igt, including cyclic ones, with at most (#tiers * #refattrs) * #tiers steps.", "quantifier": "all igts", "why_tests_cant": "Termination over all reference graphs.", "anchors": ["xigt/query.py:descendants"]}
{"id": "C29", "title": "descendants() is sound and complete for tiers", "statement": "Every step of descendants is a real reference between the two tiers with exactly the referring items, and (follow=\"all\") every tier that refers directly or indirectly to the start tier is reached.", "quantifier": "all igts and start objects", "why_tests_cant": "Graph reachability over all igts.", "anchors": ["xigt/query.py:descendants", "xigt/ref.py:referrers"]}
{"id": "C30", "title": "sort_tiers puts referred tiers first", "statement": "When tier references exist and are not circular, sort_tiers permutes the tiers so that each tier stands after the tier its highest-priority reference attribute points to, and sorting again changes nothing.", "quantifier": "all igts with existing, acyclic tier references", "why_tests_cant": "Ordering law over all graphs.", "anchors": ["xigt/model.py:Igt.sort_tiers"]}
{"id": "C31", "title": "sort_tiers terminates", "statement": "sort_tiers terminates on every igt.", "quantifier": "all igts", "why_tests_cant": "Termination over all reference graphs.", "anchors": ["xigt/model.py:Igt.sort_tiers"]}
{"id": "C32", "title": "Inherited attributes come from the nearest ancestor", "statement": "get_attribute(key, default, inherit=True) returns the value on the object or else on its nearest ancestor that has it, else the default; with inherit=False only the object itself is consulted.", "quantifier": "all ancestor chains of any length", "why_tests_cant": "Induction over chains.", "anchors": ["xigt/mixins.py:XigtAttributeMixin.get_attribute"]}
{"id": "C33", "title": "Inheritance also works for namespaced attributes", "statement": "get_attribute(key, inherit=True, namespace=ns) finds the namespaced attribute on an ancestor, like get_attribute(\"prefix:key\", inherit=True) does.", "quantifier": "all ancestor chains and namespace maps", "why_tests_cant": "Induction over chains.", "anchors": ["xigt/mixins.py:XigtAttributeMixin.get_attribute"]}
{"id": "C34", "title": "Namespace maps are inherited", "statement": "obj.nsmap is the map of the nearest object on the ancestor chain (starting with itself) that has one, or empty.", "quantifier": "all ancestor chains", "why_tests_cant": "Induction over chains.", "anchors": ["xigt/mixins.py:XigtAttributeMixin.nsmap"]}
{"id": "C35", "title": "get_meta finds the nearest matching metas", "statement": "get_meta(key, conditions) returns, in document order, all metas of that type satisfying the conditions in the \"xigt-meta\" metadata of the object, or if there are none those of the nearest ancestor, or the default.", "quantifier": "all ancestor chains and metadata", "why_tests_cant": "Induction over chains.", "anchors": ["xigt/metadata.py:XigtMetadataMixin.get_meta"]}
{"id": "C36", "title": "All loading modes give the same IGTs", "statement": "The first complete iteration over a corpus built from the same IGT source yields the same sequence of IGTs in full, incremental and transient mode.", "quantifier": "all IGT sequences", "why_tests_cant": "Universally quantified over sources.", "anchors": ["xigt/model.py:XigtCorpus.__iter__", "xigt/model.py:XigtCorpus.__init__"]}
{"id": "C37", "title": "Incremental keeps, transient forgets", "statement": "For any history of (complete or abandoned) iterations: in incremental mode the IGTs held are exactly those seen so far and later complete iterations after exhaustion yield all of them again; in transient mode nothing is held and nothing is yielded after exhaustion; no IGT is ever pulled from the source twice.", "quantifier": "all histories of complete and abandoned iterations", "why_tests_cant": "A history property.", "anchors": ["xigt/model.py:XigtCorpus.__iter__"]}
{"id": "C38", "title": "JSON round trip", "statement": "Decoding the JSON encoding of a corpus gives an equal corpus.", "quantifier": "all corpora", "why_tests_cant": "Round-trip law over all corpora.", "anchors": ["xigt/codecs/xigtjson.py:encode", "xigt/codecs/xigtjson.py:decode", "xigt/codecs/xigtjson.py:_make_obj"]}
{"id": "C39", "title": "JSON keeps namespaced attributes", "statement": "An attribute in a namespace survives a JSON round trip: it is still found under its namespace.", "quantifier": "all corpora with namespaced attributes", "why_tests_cant": "Round-trip law over all corpora.", "anchors": ["xigt/codecs/xigtjson.py:_make_obj", "xigt/codecs/xigtjson.py:decode_metachild"]}
{"id": "C40", "title": "XML round trip", "statement": "Loading the XML serialisation of a corpus gives an equal corpus.", "quantifier": "all corpora", "why_tests_cant": "Round-trip law over all corpora.", "anchors": ["xigt/codecs/xigtxml.py:_build_corpus", "xigt/codecs/xigtxml.py:default_decode", "xigt/codecs/xigtxml.py:default_decode_xigtcorpus", "xigt/codecs/xigtxml.py:_indent"]}
{"id": "C41", "title": "Indentation does not change the data", "statement": "The corpus read back does not depend on the indent argument (any width, or None) used when writing.", "quantifier": "all corpora and all indent values", "why_tests_cant": "Quantifies over all trees and widths.", "anchors": ["xigt/codecs/xigtxml.py:_indent", "xigt/codecs/xigtxml.py:default_decode_meta", "xigt/codecs/xigtxml.py:default_decode_item"]}
{"id": "C42", "title": "Streaming does not change the result", "statement": "The loaded corpus does not depend on how the parser chunks its input, nor on mode, for documents in the layout the writer produces (metadata before IGTs).", "quantifier": "all documents and all chunkings", "why_tests_cant": "Schedules of the incremental parser.", "anchors": ["xigt/codecs/xigtxml.py:default_decode", "xigt/codecs/xigtxml.py:iter_elements", "xigt/codecs/xigtxml.py:ns_iterparse"]}
{"id": "C43", "title": "find is the first result of findall", "statement": "find(obj, path) is the first element of findall(obj, path), None if there is none, for every path on which findall does not raise.", "quantifier": "all objects and paths", "why_tests_cant": "Universally quantified over paths.", "anchors": ["xigt/xigtpath.py:find", "xigt/xigtpath.py:findall"]}
{"id": "C44", "title": "Path steps compose", "statement": "findall(x, \"A/B\") lists, for each result y of findall(x, \"A\") in order, the results of findall(y, \"B\"), for steps of every axis.", "quantifier": "all objects and paths", "why_tests_cant": "Compositional semantics over all paths.", "anchors": ["xigt/xigtpath.py:_step", "xigt/xigtpath.py:_expr", "xigt/xigtpath.py:_find_child"]}
{"id": "C45", "title": "The descendant axis is complete and in document order", "statement": "\"//name\" yields every descendant-or-self element with that name exactly once in document order (metadata before contents).", "quantifier": "all trees", "why_tests_cant": "Induction over trees.", "anchors": ["xigt/xigtpath.py:_find_descendant_or_self"]}
{"id": "C46", "title": "Predicates filter", "statement": "step[p=\"v\"] keeps, in order, exactly the results for which some result of p equals v; step[p!=\"v\"] those for which none does; step[p] those for which p has a result.", "quantifier": "all objects, paths and values", "why_tests_cant": "Universally quantified over paths.", "anchors": ["xigt/xigtpath.py:_make_predicate_test"]}
{"id": "C47", "title": "Alternatives concatenate", "statement": "\"(A|B)\" yields for each context object the results of A followed by those of B, for every context, whatever the data.", "quantifier": "all objects and paths", "why_tests_cant": "Universally quantified over data.", "anchors": ["xigt/xigtpath.py:_disjunction"]}
{"id": "C48", "title": "Names in paths are taken literally", "statement": "A path built from element and attribute names selects by exactly these names.", "quantifier": "all names usable in documents", "why_tests_cant": "Tokenisation law over all names.", "anchors": ["xigt/xigtpath.py:tokenize", "xigt/xigtpath.py:xp_tokenizer_re"]}
{"id": "C49", "title": "Partitioning loses and duplicates nothing", "statement": "After xigt partition every input IGT is in exactly one output file, the one named after its key.", "quantifier": "all input collections and key functions", "why_tests_cant": "Conservation law over all inputs.", "anchors": ["xigt/scripts/xigt_partition.py:run", "xigt/scripts/xigt_partition.py:write", "xigt/scripts/xigt_partition.py:index"]}
{"id": "C50", "title": "Natural sort keys are always comparable", "statement": "xigt sort orders objects by their key strings with embedded numerals compared numerically, never failing on mixed text and numerals.", "quantifier": "all key strings and lists of sort keys", "why_tests_cant": "Total-order law over all strings.", "anchors": ["xigt/scripts/xigt_sort.py:make_sortkey"]}
{"id": "C51", "title": "Query counts add up", "statement": "The tally counts of xigt query sum to the number of matches of the query, each group once; unique counts the distinct matches.", "quantifier": "all result lists", "why_tests_cant": "Conservation law over all inputs.", "anchors": ["xigt/scripts/xigt_query.py:tally_pattern", "xigt/scripts/xigt_query.py:unique_pattern", "xigt/scripts/xigt_query.py:count_pattern"]}
{"id": "C52", "title": "The validator passes exactly clean reports", "statement": "xigt validate succeeds exactly when no checked file has a problem at or above the reporting level, anywhere in the tree of reports.", "quantifier": "all report trees and levels", "why_tests_cant": "Induction over trees.", "anchors": ["xigt/scripts/xigt_validate.py:filter_empty_reports", "xigt/scripts/xigt_validate.py:report_is_empty", "xigt/scripts/xigt_validate.py:run"]}
{"id": "C53", "title": "The validator reports overlapping spans", "statement": "An alignment expression that selects a character of an item twice is reported.", "quantifier": "all alignment expressions", "why_tests_cant": "Universally quantified over expressions.", "anchors": ["xigt/scripts/xigt_validate.py:algnexpr_spans_do_not_overlap"]}
{"id": "C54", "title": "The validator reports missing referents and duplicate IDs", "statement": "A tier reference to an unknown tier, an item reference to an unknown item of the referred tier, an item reference attribute missing on the tier, and a repeated igt or item ID each yield an ERROR record on the object concerned, and only those do.", "quantifier": "all corpora", "why_tests_cant": "Universally quantified over corpora.", "anchors": ["xigt/scripts/xigt_validate.py:validate_corpus", "xigt/scripts/xigt_validate.py:validate_igt", "xigt/scripts/xigt_validate.py:validate_tier", "xigt/scripts/xigt_validate.py:validate_item"]}
{"id": "C55", "title": "Imported words select themselves", "statement": "For words imported from Toolbox, the segmentation reference of the k-th word selects exactly the text of that word in the phrase item.", "quantifier": "all token lists", "why_tests_cant": "Arithmetic over all token lists.", "anchors": ["xigt/importers/toolbox.py:align_word", "xigt/importers/toolbox.py:make_phrase_tier", "xigt/importers/toolbox.py:make_tier"]}
{"id": "C56", "title": "Imported morpheme spans lie in their word", "statement": "The span computed for a morpheme satisfies 0 <= begin <= end <= length of the word.", "quantifier": "all words and morpheme lists", "why_tests_cant": "Arithmetic over all inputs.", "anchors": ["xigt/importers/toolbox.py:align_word"]}
{"id": "C57", "title": "Respacing keeps byte columns", "statement": "After decoding a Toolbox line each token starts at the column equal to its byte offset in the file, whatever multi-byte characters precede it.", "quantifier": "all byte lines and encodings", "why_tests_cant": "Universally quantified over byte strings.", "anchors": ["xigt/importers/toolbox.py:_respace_decode"]}
{"id": "C58", "title": "The ODIN importer produces only XML characters and keeps valid ones", "statement": "Cleaned text has the same length, contains only characters legal in XML 1.0, and legal characters are unchanged.", "quantifier": "all strings", "why_tests_cant": "Universally quantified over strings.", "anchors": ["xigt/importers/odin.py:replace_invalid_xml_chars", "xigt/importers/odin.py:invalid_char_re"]}
{"id": "C59", "title": "LaTeX escaping is character-wise and unambiguous", "statement": "Escaping replaces each special character independently of its neighbours, never re-escapes its own output, and different strings have different escapes.", "quantifier": "all strings", "why_tests_cant": "Algebraic law over all strings; the code is a sequence of global replacements.", "anchors": ["xigt/exporters/latex.py:escape", "xigt/exporters/latex.py:LATEX_CHARMAP"]}
{"id": "C60", "title": "The LaTeX grid shows every item once", "statement": "Grouping aligned tiers into columns keeps every item of every tier exactly once, in order, and gives every column one row per tier.", "quantifier": "all tier lists with references to the previous tier in order", "why_tests_cant": "Loop invariant over all tiers.", "anchors": ["xigt/exporters/latex.py:group_alignments", "xigt/exporters/latex.py:align_tier", "xigt/exporters/latex.py:merge_columns"]}
{"id": "C61", "title": "[incr tsdb()] rows are numbered distinctly and use their own cell mapper", "statement": "Exported rows have distinct increasing i-ids and each configured cell is computed by its own expression.", "quantifier": "all corpora and configurations", "why_tests_cant": "Quantifies over all configurations.", "anchors": ["xigt/exporters/itsdb.py:export_corpus", "xigt/exporters/itsdb.py:prepare_config", "xigt/exporters/itsdb.py:export_igt"]}
{"id": "C62", "title": "select() is an order-preserving filter", "statement": "select(**criteria) yields, in order, exactly the contained objects all of whose named members equal the given values, a namespace prefix being replaced by its URI.", "quantifier": "all containers and criteria", "why_tests_cant": "Universally quantified.", "anchors": ["xigt/mixins.py:XigtContainerMixin.select"]}
{"id": "C63", "title": "segmentation excludes content and alignment at construction", "statement": "Constructing a tier or item with a non-empty segmentation together with a non-empty content or alignment argument raises XigtError; every other combination is stored as given.", "quantifier": "all argument combinations", "why_tests_cant": "Complete case analysis.", "anchors": ["xigt/mixins.py:XigtReferenceAttributeMixin.__init__"]}
{"id": "C64", "title": "referents() and referrers() raise XigtLookupError exactly for unknown IDs", "statement": "referents(igt, i) and referrers(igt, i) succeed for every ID of a tier or (indexed) item of the igt, and raise XigtLookupError, and no other error, for every other string.", "quantifier": "all igts and strings", "why_tests_cant": "Complete case analysis over all strings and igts.", "anchors": ["xigt/ref.py:referents", "xigt/ref.py:referrers"]}
{"id": "C65", "title": "ancestors() stops only where it must", "statement": "If query.ancestors stops without an exception, the last tier reached has no reference attribute or was met before.", "quantifier": "all igts and start objects", "why_tests_cant": "The visited check mixes strings and sets of characters; only all reference graphs and IDs show it.", "anchors": ["xigt/query.py:ancestors"]}
{"id": "C66", "title": "descendants() lists every indirectly referring item", "statement": "With follow=\"all\", every item that refers, directly or through items of other tiers, to a start item is listed in some step.", "quantifier": "all igts and start items", "why_tests_cant": "Depends on the order in which tiers are reached.", "anchors": ["xigt/query.py:descendants"]}
{"id": "C67", "title": "Namespace declarations survive JSON", "statement": "After decoding the JSON encoding of a corpus, every object has the namespace map it had before.", "quantifier": "all corpora", "why_tests_cant": "Depends on all ways of nesting declarations.", "anchors": ["xigt/codecs/xigtjson.py:_make_obj", "xigt/codecs/xigtjson.py:decode", "xigt/codecs/xigtjson.py:active_namespaces"]}
{"id": "C68", "title": "xigt sort only reorders", "statement": "The output of xigt sort differs from the input only in the order of the IGTs in the corpus, of the tiers in IGTs and of the items in tiers.", "quantifier": "all corpora, key paths and tier dependencies", "why_tests_cant": "Conservation law over all corpora and keys.", "anchors": ["xigt/scripts/xigt_sort.py:run", "xigt/model.py:Igt.sort_tiers"]}
{"id": "C69", "title": "The validator reports spans beyond the end", "statement": "For a reference made of selections joined by + or ,, the validator reports exactly the spans that begin or end beyond the end of the value of the selected item.", "quantifier": "all references, igts and values", "why_tests_cant": "Universally quantified over expressions and values.", "anchors": ["xigt/scripts/xigt_validate.py:algnexpr_spans_in_aligned_item"]}
{"id": "C70", "title": "The validator finishes", "statement": "xigt validate finishes without an exception for every corpus whose IDs are XML-style IDs, whose references are selections joined by + or ,, whose values can be computed, and in which items of which spans are selected have a value.", "quantifier": "all corpora", "why_tests_cant": "Every kind of message and every path through the checks must be followed.", "anchors": ["xigt/scripts/xigt_validate.py:validate_corpus", "xigt/scripts/xigt_validate.py:validate_condition"]}
{"id": "C71", "title": "Morphemes that spell their word select themselves", "statement": "If a word in lower case without hyphens is spelled by its morphemes without their boundary marks, the reference computed for each morpheme evaluates to exactly that morpheme without its marks (a sole morpheme having no marks).", "quantifier": "all words and morpheme lists", "why_tests_cant": "Arithmetic with a search over all words and morphemes.", "anchors": ["xigt/importers/toolbox.py:align_word", "xigt/importers/toolbox.py:make_tier"]}
{"id": "C72", "title": "Importing Toolbox keeps every token once and in order", "statement": "Every tier imported from a Toolbox record contains exactly the tokens of its line, in order, with IDs made of the tier ID and 1, 2, 3, ..., which are distinct; there are no other tiers but phrase tiers.", "quantifier": "all records and options", "why_tests_cant": "Universally quantified over token lists.", "anchors": ["xigt/importers/toolbox.py:make_all_tiers", "xigt/importers/toolbox.py:make_tier", "xigt/importers/toolbox.py:make_igt"]}
{"id": "C73", "title": "Record keys become valid IGT IDs", "statement": "The key of every Toolbox record is turned into a valid ID, different keys into different IDs.", "quantifier": "all keys", "why_tests_cant": "Universally quantified over strings.", "anchors": ["xigt/importers/toolbox.py:make_igt"]}
{"id": "C74", "title": "Imported tokens refer to what they are aligned with", "statement": "Every item imported from a token that Toolbox aligns with a token of another line refers to the item at the position of that token, or to a span of it, and to nothing else.", "quantifier": "all records and options", "why_tests_cant": "Universally quantified over alignments.", "anchors": ["xigt/importers/toolbox.py:make_tier", "xigt/importers/toolbox.py:make_all_tiers"]}
{"id": "C75", "title": "Importing ODIN keeps every block and line", "statement": "Every block with a document, line types, a line range of two parts, an accepted ID and a content for every line becomes one IGT, in order, with one tier r of items r1, r2, ... that hold the cleaned lines and their other data; of any other block nothing is imported but an exception is raised.", "quantifier": "all blocks and options", "why_tests_cant": "Universally quantified over blocks.", "anchors": ["xigt/importers/odin.py:odin_igts", "xigt/importers/odin.py:make_igt", "xigt/importers/odin.py:make_igt_raw_tier", "xigt/importers/odin.py:make_igt_attributes", "xigt/importers/odin.py:make_igt_metadata"]}
{"id": "C76", "title": "What the ODIN importer writes can be read", "statement": "Reading the file the ODIN importer writes gives the corpus it imported.", "quantifier": "all blocks and options", "why_tests_cant": "Depends on all characters in all fields of a block.", "anchors": ["xigt/importers/odin.py:_xigt_import", "xigt/importers/odin.py:replace_invalid_xml_chars", "xigt/importers/odin.py:make_igt_metadata"]}
{"id": "C77", "title": "TeX prints what was escaped", "statement": "TeX, reading the escaped form of a string, prints exactly the characters of the string.", "quantifier": "all strings", "why_tests_cant": "Depends on every character and on what follows it.", "anchors": ["xigt/exporters/latex.py:escape", "xigt/exporters/latex.py:LATEX_CHARMAP"]}
{"id": "C78", "title": "Items stand in the columns of what they refer to", "statement": "In the LaTeX grid every item stands in the same column as all items of the previous tier from the first to the last it refers to.", "quantifier": "all tier lists with references to the previous tier in order", "why_tests_cant": "Columns are merged and shifted in a loop over all tiers.", "anchors": ["xigt/exporters/latex.py:group_alignments", "xigt/exporters/latex.py:align_tier", "xigt/exporters/latex.py:merge_columns", "xigt/exporters/latex.py:get_agenda"]}
{"id": "C79", "title": "The exported LaTeX lines show the grid", "statement": "The LaTeX block of an IGT has one line for each tier of the wanted types, made of as many groups as the grid has columns, the groups holding the escaped texts of the items of the tier in their columns, and one line for each tier of translations; an IGT with fewer than two tiers of the wanted types becomes a comment.", "quantifier": "all IGTs", "why_tests_cant": "Universally quantified over IGTs and texts; groups must be recognisable whatever the texts contain.", "anchors": ["xigt/exporters/latex.py:export_igt", "xigt/exporters/latex.py:escape", "xigt/exporters/latex.py:group_alignments"]}
{"id": "C80", "title": "Assigning contents replaces them", "statement": "After assigning a list or container to igts, tiers, items, metas, children or metadata, the container holds exactly the assigned objects in their order, finds them by ID and is their parent; if an object is of the wrong class or its ID is taken the call raises and the container holds the objects before it.", "quantifier": "all containers, assigned lists and containers", "why_tests_cant": "Universally quantified over contents, including what is assigned being the container itself.", "anchors": ["xigt/model.py:XigtCorpus.igts", "xigt/model.py:Igt.tiers", "xigt/model.py:Tier.items", "xigt/metadata.py:XigtMetadataMixin.metadata", "xigt/mixins.py:XigtContainerMixin.extend", "xigt/mixins.py:XigtContainerMixin.clear"]}
{"id": "C81", "title": "Extending a container by itself ends exactly if an ID stops it", "statement": "Extending a container by itself ends exactly if it is empty or some contained object has an ID; if one has, XigtError is raised after the objects before it were added a second time.", "quantifier": "all containers reached by calls that keep the index", "why_tests_cant": "Non-termination cannot be observed by a test.", "anchors": ["xigt/mixins.py:XigtContainerMixin.extend", "xigt/mixins.py:XigtContainerMixin.append"]}
{"id": "C82", "title": "List methods that containers inherit leave the index alone", "statement": "After pop, reverse, sort, += and *= on a container, lookup by ID agrees with the contents; refresh_index makes it agree whenever no two contained objects share an ID.", "quantifier": "all containers and sequences of such calls", "why_tests_cant": "Universally quantified over call sequences.", "anchors": ["xigt/mixins.py:XigtContainerMixin", "xigt/mixins.py:XigtContainerMixin.refresh_index"]}
{"id": "C83", "title": "Deprecated resolution agrees with the current one", "statement": "resolve_alignment_expression and get_alignment_expression_spans, which are deprecated, do on every alignment expression what resolve and spans do: the former gives the same text or raises the same exception, the latter lists IDs, selections with their numbers and delimiters in order.", "quantifier": "all well-formed alignment expressions and all items", "why_tests_cant": "Universally quantified over expressions.", "anchors": ["xigt/ref.py:resolve_alignment_expression", "xigt/ref.py:resolve_alignment", "xigt/ref.py:get_alignment_expression_spans"]}
{"id": "C84", "title": "Descriptions of query results show what they should", "statement": "The description of a match printed by xigt query is the description given (or the default one) with query, subquery and match filled in for their fields and everything else unchanged.", "quantifier": "all descriptions, queries and matches", "why_tests_cant": "Universally quantified over format strings, which are formatted twice.", "anchors": ["xigt/scripts/xigt_query.py:SafeFormatter.vformat", "xigt/scripts/xigt_query.py:make_job", "xigt/scripts/xigt_query.py:find_pattern", "xigt/scripts/xigt_query.py:tally_pattern"]}
{"id": "C85", "title": "The agenda follows the options", "statement": "The agenda of xigt query has an entry for each action in the order of the options; its description is the last one given between the action and the next, or the default one.", "quantifier": "all option lists that begin with an action", "why_tests_cant": "Universally quantified over option lists.", "anchors": ["xigt/scripts/xigt_query.py:make_job", "xigt/scripts/xigt_query.py:AgendaAction"]}
{"id": "C86", "title": "The table of query results is aligned and can be read back", "statement": "The table of results has a line for each result in order; the numbers end in the same column, the longest preceded by one space, followed by a tab and the description; two different lists of results never give the same lines.", "quantifier": "all lists of results", "why_tests_cant": "Universally quantified over numbers and descriptions.", "anchors": ["xigt/scripts/xigt_query.py:print_results"]}
{"id": "C87", "title": "The validator prints exactly the problems of the level", "statement": "For each element in the order of the document with a problem of the level or above in it or in what it contains, the validator prints a heading followed by its own messages of the level or above; nothing else is printed, so nothing is printed exactly if the file passes, and no heading fails.", "quantifier": "all reports and levels", "why_tests_cant": "Universally quantified over report trees; reports are filtered, then printed, then filtered again by the logger.", "anchors": ["xigt/scripts/xigt_validate.py:filter_empty_reports", "xigt/scripts/xigt_validate.py:report_is_empty", "xigt/scripts/xigt_validate.py:print_report", "xigt/scripts/xigt_validate.py:format_heading", "xigt/scripts/xigt_validate.py:format_message"]}
{"id": "C88", "title": "Messages of the validator name what is wrong", "statement": "The text of each message is its sentence with the modal verb of its level, the name of the element, its scope, and the IDs and attributes concerned.", "quantifier": "all messages, IDs and attributes", "why_tests_cant": "Universally quantified over the texts inserted, which are formatted twice.", "anchors": ["xigt/scripts/xigt_validate.py:validate_condition", "xigt/scripts/xigt_validate.py:make_context", "xigt/scripts/xigt_validate.py:must", "xigt/scripts/xigt_validate.py:should", "xigt/scripts/xigt_validate.py:may"]}
{"id": "C89", "title": "Every object can be encoded by itself", "statement": "The element that encode_igt, encode_tier, encode_item, encode_metadata, encode_meta or encode_metachild makes of an object anywhere in a corpus declares all namespaces it needs, and is decoded to an equal object, with every indentation.", "quantifier": "all objects of all classes, wherever they are, and all indentations", "why_tests_cant": "Universally quantified over objects and the namespaces around them.", "anchors": ["xigt/codecs/xigtxml.py:default_encode_igt", "xigt/codecs/xigtxml.py:default_encode_tier", "xigt/codecs/xigtxml.py:default_encode_item", "xigt/codecs/xigtxml.py:default_encode_metadata", "xigt/codecs/xigtxml.py:default_encode_meta", "xigt/codecs/xigtxml.py:default_encode_metachild"]}
{"id": "C90", "title": "The text of an XML document can be read back, character by character", "statement": "Reading the characters that dumps (or the encoder of an object) writes, with a reader that sees one character at a time, gives an equal corpus (object): no text, attribute value or name of an object is taken for markup or changed by escaping.", "quantifier": "all corpora and objects, all indentations", "why_tests_cant": "Universally quantified over all characters in all texts, values and names.", "anchors": ["xigt/codecs/xigtxml.py:dumps", "xigt/codecs/xigtxml.py:loads", "xigt/codecs/xigtxml.py:_build_elem", "xigt/codecs/xigtxml.py:_tostring"]}
{"id": "C91", "title": "The text of a JSON document can be read back, character by character", "statement": "For every corpus and indentation, reading the characters that dumps of the JSON codec writes gives what decoding the encoded value gives, so the text layer neither loses nor changes anything; the text has only printable ASCII characters and line breaks.", "quantifier": "all corpora and indentations", "why_tests_cant": "Universally quantified over all characters in all strings, keys included.", "anchors": ["xigt/codecs/xigtjson.py:dumps", "xigt/codecs/xigtjson.py:dump", "xigt/codecs/xigtjson.py:loads", "xigt/codecs/xigtjson.py:load", "xigt/codecs/xigtjson.py:encode"]}
{"id": "C92", "title": "A Toolbox file becomes one IGT for each record", "statement": "If importing a Toolbox file finishes, there is an IGT for every record with a key, in order, unless Toolbox could not align a field or tokens have nothing to be aligned with; its ID is the key (after \"igt\" if it does not begin with a letter), its attributes are exactly the last values of the mapped markers, and it has a tier for every mapped field with exactly the tokens of the field.", "quantifier": "all records and options", "why_tests_cant": "Universally quantified over lists of records, fields and alignments.", "anchors": ["xigt/importers/toolbox.py:toolbox_igts", "xigt/importers/toolbox.py:make_igt", "xigt/importers/toolbox.py:make_all_tiers", "xigt/importers/toolbox.py:make_tier"]}
{"id": "C93", "title": "What the Toolbox importer writes can be read", "statement": "The file written for the imported IGTs can be read, with every indentation, and the corpus read is equal to the one imported.", "quantifier": "all records, options and indentations", "why_tests_cant": "Universally quantified over records; concerns two different modules.", "anchors": ["xigt/importers/toolbox.py:xigt_import", "xigt/importers/toolbox.py:make_igt", "xigt/codecs/xigtxml.py:dump", "xigt/codecs/xigtxml.py:load"]}
{"id": "C94", "title": "Toolbox markers are aligned as the tiers are", "statement": "The alignment of markers passed to Toolbox relates exactly the last markers of tiers that are aligned and both interlinear; making it raises KeyError exactly if such a tier has no marker.", "quantifier": "all tier maps, tier types and alignments", "why_tests_cant": "Universally quantified over three maps.", "anchors": ["xigt/importers/toolbox.py:_make_tb_alignments"]}
{"id": "C95", "title": "xigt sort sorts each level by what is asked for", "statement": "The IGTs are sorted by the IGT key; then the tiers of every IGT by the tier key, or without one by the tier dependencies; then the items of every tier by the item key; a level nothing is given for is left as it is, and a sort is stable.", "quantifier": "all corpora and combinations of options", "why_tests_cant": "Universally quantified over corpora and keys; later sorts see what earlier ones made.", "anchors": ["xigt/scripts/xigt_sort.py:run", "xigt/scripts/xigt_sort.py:make_sortkey"]}
{"id": "C96", "title": "The output of xigt query for a file", "statement": "For each file the script prints its heading, a line for each match of each find action, an aligned table of the results of the other actions in the order of the agenda (each group of a tally once with its number, the number of different matches, the number of matches), and an empty line.", "quantifier": "all corpora, agendas and descriptions", "why_tests_cant": "Universally quantified over agendas.", "anchors": ["xigt/scripts/xigt_query.py:run", "xigt/scripts/xigt_query.py:process_agenda", "xigt/scripts/xigt_query.py:print_results", "xigt/scripts/xigt_query.py:find_pattern"]}
{"id": "C97", "title": "referent() and referrer() follow references", "statement": "The step referent() finds, for each of the given (or allowed) reference attributes in ascending order, the tiers or items with the IDs mentioned in it; referrer() finds the objects of the same level that mention the object in it, in the order of the document; text() and value() give text and value.", "quantifier": "all igts, objects and reference attributes", "why_tests_cant": "Universally quantified over igts and expressions.", "anchors": ["xigt/xigtpath.py:_find_referent", "xigt/xigtpath.py:_find_referrer", "xigt/xigtpath.py:_function", "xigt/ref.py:referents", "xigt/ref.py:referrers"]}
{"id": "C98", "title": "What is written is valid", "statement": "Every corpus is written, with every indentation, as a document that schema/xigt-structure.rnc allows.", "quantifier": "all corpora and indentations", "why_tests_cant": "Universally quantified over corpora; relates the text that is written to a schema in another language.", "anchors": ["xigt/codecs/xigtxml.py:dumps", "xigt/codecs/xigtxml.py:_build_elem", "schema/xigt-structure.rnc:XigtCorpus", "schema/xigt-structure.rnc:Igt", "schema/xigt-structure.rnc:Tier", "schema/xigt-structure.rnc:Item", "schema/xigt-structure.rnc:Metadata"]}
{"id": "C99", "title": "The validator's output is the same with and without colours", "statement": "With colours, a terminal shows the characters that are printed without colours, headings in bold and each message in the colour of its level, and is in its initial state after every line; the depth, index and ID of an element can be told from its heading.", "quantifier": "all headings and messages without control characters", "why_tests_cant": "Universally quantified over IDs, indices and messages.", "anchors": ["xigt/scripts/xigt_validate.py:format_heading", "xigt/scripts/xigt_validate.py:format_message"]}
{"id": "C100", "title": "Every document the schema allows is read, with everything in it", "statement": "Every text of a document that schema/xigt-structure.rnc allows is loaded without an error, and the corpus has an object for every element, with its attributes and text.", "quantifier": "all texts of valid documents, and all ways of cutting the input", "why_tests_cant": "Universally quantified over documents.", "anchors": ["xigt/codecs/xigtxml.py:loads", "xigt/codecs/xigtxml.py:default_decode", "xigt/codecs/xigtxml.py:iter_elements", "xigt/codecs/xigtxml.py:default_decode_igt", "xigt/codecs/xigtxml.py:default_decode_tier", "xigt/codecs/xigtxml.py:default_decode_item", "xigt/codecs/xigtxml.py:default_decode_metadata", "xigt/codecs/xigtxml.py:default_decode_meta", "xigt/codecs/xigtxml.py:default_decode_metachild", "schema/xigt-structure.rnc:XigtCorpus"]}
{"id": "C101", "title": "The alignment expressions the schema allows are those the code reads", "statement": "A string is a valid alignment expression (AlgnExpr) exactly if it is written from selections of identifiers and unsigned spans joined by commas and plus signs, and the code divides every valid string into the same identifiers, selections, spans and text as the schema does.", "quantifier": "all strings, and all items referred to", "why_tests_cant": "Universally quantified over strings; relates the regular expressions of two languages.", "anchors": ["schema/xigt-structure.rnc:AlgnExpr", "schema/xigt-structure.rnc:Id", "xigt/ref.py:ids", "xigt/ref.py:selections", "xigt/ref.py:spans", "xigt/ref.py:resolve"]}
{"id": "C102", "title": "What the importers write is valid", "statement": "Everything the ODIN importer and the Toolbox importer (with the default options) import and write is a document that schema/xigt-structure.rnc allows, with every indentation.", "quantifier": "all blocks, records, suitable options and indentations", "why_tests_cant": "Universally quantified over inputs; relates importers to a schema in another language.", "anchors": ["xigt/importers/odin.py:_xigt_import", "xigt/importers/odin.py:make_igt", "xigt/importers/toolbox.py:make_igt", "xigt/importers/toolbox.py:make_all_tiers", "xigt/importers/toolbox.py:make_tier", "schema/xigt-structure.rnc:XigtCorpus"]}
{"id": "C103", "title": "What is written is valid against xigt.rnc", "statement": "Every corpus that is written as a document schema/xigt-structure.rnc allows is, with every indentation, a document that schema/xigt.rnc allows.", "quantifier": "all corpora and indentations", "why_tests_cant": "Universally quantified over corpora; relates the text that is written to schemata in another language.", "anchors": ["xigt/codecs/xigtxml.py:dumps", "xigt/codecs/xigtxml.py:_build_elem", "schema/xigt.rnc", "schema/xigt-corpus.rnc:Corpus.subtype", "schema/xigt-igt.rnc:Igt", "schema/xigt-tier.rnc:Tier", "schema/xigt-item.rnc:Item", "schema/xigt-metadata.rnc:Metadata", "schema/xigt-meta.rnc:Meta"]}
{"id": "C104", "title": "What the ODIN importer writes is valid against odin-xigt.rnc", "statement": "Everything the ODIN importer imports and writes is a document that schema/extensions/odin-xigt.rnc allows, with every indentation and with every setting of keep_headers.", "quantifier": "all blocks, options and indentations", "why_tests_cant": "Universally quantified over inputs; relates an importer to a schema in another language.", "anchors": ["xigt/importers/odin.py:_xigt_import", "xigt/importers/odin.py:make_igt", "xigt/importers/odin.py:make_igt_metadata", "xigt/importers/odin.py:make_igt_raw_tier", "schema/extensions/odin-xigt.rnc"]}
{"id": "C105", "title": "What the Toolbox importer writes is valid against default-xigt.rnc", "statement": "Everything the Toolbox importer imports and writes with the default options is a document that schema/default-xigt.rnc allows; of corpora in general those without other attributes than the schema lists and with tiers and items of the types it lists are written as valid documents.", "quantifier": "all records, corpora and indentations", "why_tests_cant": "Universally quantified over inputs; relates an importer to a schema in another language.", "anchors": ["xigt/importers/toolbox.py:make_igt", "xigt/importers/toolbox.py:make_all_tiers", "xigt/importers/toolbox.py:make_tier", "schema/default-xigt.rnc"]}
{"id": "C106", "title": "Importing ODIN files changes only its output files", "statement": "Importing a directory (or a file) changes no file but the output files, in or under the output path; every input file whose name has the suffix is read as it was and gives the file of the same name with .xml for the suffix, up to the first error; a directory and a file do not go together and nothing is changed then.", "quantifier": "all file systems, paths, suffixes and ways of importing a text", "why_tests_cant": "Universally quantified over file systems, including those in which inputs and outputs coincide.", "anchors": ["xigt/importers/odin.py:xigt_import", "xigt/importers/odin.py:_xigt_import", "xigt/scripts/xigt_import.py:run"]}
{"id": "C107", "title": "Partitioning changes no file outside the output directory", "statement": "Partitioning makes a new directory and changes no file outside it, whatever happens; it succeeds just if all files can be read, keyed and written, and then the directory has exactly one file for each group, with what the input files had at the start. If there is such a directory, the script ends with status 1 and nothing is changed.", "quantifier": "all file systems, input files, key paths and output directories", "why_tests_cant": "Universally quantified over file systems and the keys found in the data.", "anchors": ["xigt/scripts/xigt_partition.py:run", "xigt/scripts/xigt_partition.py:create_outdir", "xigt/scripts/xigt_partition.py:index", "xigt/scripts/xigt_partition.py:write"]}
{"id": "C108", "title": "Sorting in place changes only the file, and only by sorting", "statement": "xigt sort changes no file but, with --in-place, the one it sorts, and this only if there is no exception; the file then has the sorted corpus, in which the same objects are in another order, and can be read as exactly this corpus. Without --in-place what is printed is that document. Sorting the file again leaves it as it is.", "quantifier": "all file systems, files, arguments and ways of reading ahead", "why_tests_cant": "Universally quantified over file systems, documents and sort keys.", "anchors": ["xigt/scripts/xigt_sort.py:run", "xigt/codecs/xigtxml.py:load", "xigt/codecs/xigtxml.py:dump"]}
{"id": "C109", "title": "What was read can be written and read again", "statement": "A corpus that was read from a document can be written, with every indentation, and what is read from the text that was written is the same corpus, including namespace maps and the order of attributes, however the text is cut into chunks.", "quantifier": "all documents and indentations", "why_tests_cant": "Universally quantified over documents, including those that were not written by this codec.", "anchors": ["xigt/codecs/xigtxml.py:load", "xigt/codecs/xigtxml.py:loads", "xigt/codecs/xigtxml.py:dumps", "xigt/codecs/xigtxml.py:_build_elem", "xigt/codecs/xigtxml.py:get_attributes", "xigt/codecs/xigtxml.py:default_decode_metachild"]}
{"id": "C110", "title": "Sorting what was sorted changes nothing", "statement": "If xigt sort makes one corpus of another, it makes this corpus of itself, with the same arguments.", "quantifier": "all corpora and arguments", "why_tests_cant": "Universally quantified over corpora and sort keys; keys are queries that may look at anything.", "anchors": ["xigt/scripts/xigt_sort.py:run", "xigt/scripts/xigt_sort.py:make_sortkey", "xigt/xigtpath.py:find"]}
{"id": "C111", "title": "The exported LaTeX is read by TeX as one complete document", "statement": "TeX reads the exported text as the preamble, one block for each IGT in order, and the ending: an example with one row of groups for each tier shown, each group holding nothing but the printed characters of its items, and the translations, or nothing for an IGT with too few tiers; nothing in the data is read as a command, a group or a comment.", "quantifier": "all IGTs, configurations without substitutions and texts", "why_tests_cant": "Universally quantified over texts; relates the output to another language that reads it.", "anchors": ["xigt/exporters/latex.py:xigt_export", "xigt/exporters/latex.py:header", "xigt/exporters/latex.py:footer", "xigt/exporters/latex.py:export_corpus", "xigt/exporters/latex.py:export_igt", "xigt/exporters/latex.py:escape", "xigt/exporters/latex.py:align_tier"]}
{"id": "C112", "title": "Exporting LaTeX changes only the output file, which is a complete document", "statement": "xigt export changes no file but the output; this is the document with the blocks of all IGTs of the input in order, unless there is an exception.", "quantifier": "all file systems, inputs and configurations", "why_tests_cant": "Universally quantified over file systems and inputs, including those where exporting stops half way.", "anchors": ["xigt/scripts/xigt_export.py:run", "xigt/exporters/latex.py:xigt_export", "xigt/codecs/xigtxml.py:load"]}
{"id": "C113", "title": "What is read from a document is what it says", "statement": "A document with an XML declaration, comments, processing instructions, CDATA sections, references, single or double quotes, white space in tags and either form of empty elements is read as the same corpus as the document without these that has the same elements, attributes and text.", "quantifier": "all well-formed documents without a document type, in every mode and chunking", "why_tests_cant": "Universally quantified over documents and the places where a comment may stand.", "anchors": ["xigt/codecs/xigtxml.py:load", "xigt/codecs/xigtxml.py:loads", "xigt/codecs/xigtxml.py:ns_iterparse", "xigt/codecs/xigtxml.py:decode", "xigt/codecs/xigtxml.py:iter_elements"]}
{"id": "C114", "title": "Comments survive rewriting", "statement": "A comment in a document that is sorted in place is still there afterwards.", "quantifier": "all documents", "why_tests_cant": "Universally quantified over documents; a test compares corpora, which have no comments.", "anchors": ["xigt/codecs/xigtxml.py:load", "xigt/codecs/xigtxml.py:dump", "xigt/codecs/xigtxml.py:_build_corpus", "xigt/scripts/xigt_sort.py:run"]}
{"id": "C115", "title": "The order of attributes in a document does not matter", "statement": "Two documents that differ only in the order of attributes and namespace declarations are read with the same outcome: the same exception, or equal corpora. What is written is read as the same corpus whether the serialiser sorts attributes (python 3.6, 3.7) or not.", "quantifier": "all well-formed documents, modes and chunkings; all corpora and indentations", "why_tests_cant": "Universally quantified over documents and permutations of the attributes of every element.", "anchors": ["xigt/codecs/xigtxml.py:loads", "xigt/codecs/xigtxml.py:ns_iterparse", "xigt/codecs/xigtxml.py:decode", "xigt/codecs/xigtxml.py:get_attributes", "xigt/codecs/xigtxml.py:dumps"]}
{"id": "C116", "title": "Attributes are written in one order", "statement": "In every element that is written, namespace declarations come first, then id, type, alignment, content and segmentation, then the other attributes in order of their names; so equal elements are written with the same text.", "quantifier": "all corpora and indentations", "why_tests_cant": "Universally quantified over corpora; the order of insertion is invisible to ==.", "anchors": ["xigt/codecs/xigtxml.py:xigt_attrsort", "xigt/codecs/xigtxml.py:_QName", "xigt/codecs/xigtxml.py:_build_elem", "xigt/codecs/xigtxml.py:dumps"]}
{"id": "C117", "title": "What is written in any encoding can be read", "statement": "The bytes that dump() writes with any encoding= that the parser knows are read by load() as an equal corpus; characters that the encoding lacks are written as references.", "quantifier": "all corpora, indentations and encodings that contain ASCII", "why_tests_cant": "Universally quantified over corpora and encodings; which characters need references depends on both.", "anchors": ["xigt/codecs/xigtxml.py:dump", "xigt/codecs/xigtxml.py:load", "xigt/codecs/xigtxml.py:encode_xigtcorpus"]}
{"id": "C118", "title": "loads() reads what dumps() returned, in every encoding", "statement": "If dumps() is given an encoding= and returns bytes, loads() reads them as an equal corpus.", "quantifier": "all corpora, indentations and encodings", "why_tests_cant": "Universally quantified over corpora and encodings; ASCII texts do not show the difference between encodings.", "anchors": ["xigt/codecs/xigtxml.py:dumps", "xigt/codecs/xigtxml.py:loads"]}
{"id": "C119", "title": "From XML to JSON and back", "statement": "A corpus that is read from XML, written as JSON, read again, written as XML and read is the same corpus.", "quantifier": "all documents and indentations", "why_tests_cant": "Universally quantified over documents; the two codecs treat namespaces differently, and each is tested only with itself.", "anchors": ["xigt/codecs/xigtxml.py:decode", "xigt/codecs/xigtxml.py:_build_elem", "xigt/codecs/xigtjson.py:_make_obj", "xigt/codecs/xigtjson.py:decode"]}
{"id": "C120", "title": "Which corpora default-xigt.rnc allows, with their metadata", "statement": "What is written of a corpus is valid against schema/default-xigt.rnc exactly if tiers and items are of the types it lists, notes in metadata are of the types it lists (language, date, author, source, comment, or none) with the attributes and the kind of content it lists for the type, references and identifiers have the form it asks for, and there are no further attributes.", "quantifier": "all corpora and indentations", "why_tests_cant": "Universally quantified over corpora; relates the writer to a schema in another language.", "anchors": ["xigt/codecs/xigtxml.py:_build_elem", "schema/default-xigt.rnc", "schema/xigt-meta.rnc", "schema/xigt-metadata.rnc"]}
{"id": "C121", "title": "The exit status of xigt validate says whether there are errors", "statement": "xigt validate ends with status 0 exactly if all files can be read and no error is found in any of them, with whatever verbosity it is run.", "quantifier": "all files and options", "why_tests_cant": "Universally quantified over files; the level of what is printed also decides the status, which shows only if files with errors are checked with other options.", "anchors": ["xigt/scripts/xigt_validate.py:main", "xigt/scripts/xigt_validate.py:run", "xigt/scripts/xigt_validate.py:filter_empty_reports"]}
{"id": "C122", "title": "The referents and referrers of a tier or item are its own", "statement": "x.referents() of a tier or item x gives the IDs in the reference attributes of x itself; x.referrers() gives the tiers, or items, that have the ID of x in such an attribute; without IGT or ID they raise XigtError.", "quantifier": "all igts, tiers and items", "why_tests_cant": "Universally quantified over igts; the methods look the object up by its ID instead of using it.", "anchors": ["xigt/mixins.py:referents", "xigt/mixins.py:referrers", "xigt/ref.py:referents", "xigt/ref.py:referrers"]}
{"id": "C123", "title": "span() of an item is what a reference with the same span selects", "statement": "item.span(a, b) is the part of the value between the two places, where negative ones count from the end and those beyond an end stand for it; it is None without a value. A reference i[a:b] to the item i resolves to the same text.", "quantifier": "all items and bounds", "why_tests_cant": "Universally quantified over values and bounds of either sign; relates two ways of selecting.", "anchors": ["xigt/model.py:Item.span", "xigt/ref.py:resolve"]}
{"id": "C124", "title": "Following references finds the objects they name", "statement": "dereference_all() gives for each ID in the attribute, in order, the tier or item of the igt that has this ID, or None if none has; dereference() gives the first of them; get_aligned_tier() gives the tier named, and raises XigtAttributeError if the tier has no such attribute.", "quantifier": "all igts, objects, attributes and histories of edits", "why_tests_cant": "Universally quantified over igts and edits; failures show only after removals or on paths for errors.", "anchors": ["xigt/ref.py:dereference", "xigt/ref.py:dereference_all", "xigt/ref.py:get_aligned_tier"]}
{"id": "C125", "title": "Reference attributes can be assigned", "statement": "After any assignments to alignment, content and segmentation of a tier or item each is what was assigned to it last, other attributes are unchanged, references can be read, and segmentation does not occur with the others.", "quantifier": "all objects and sequences of assignments", "why_tests_cant": "Universally quantified over sequences of assignments, with None among what is assigned.", "anchors": ["xigt/mixins.py:XigtReferenceAttributeMixin"]}
{"id": "C126", "title": "xigt query answers for each file as if it were alone", "statement": "xigt query prints for the files, in order, what it prints for each alone, up to and with the first that fails, and ends with the exception of that one or regularly; of the one that fails it prints what was found before, but no results; without files, without an action, or with a description before any action it ends with a message about its usage.", "quantifier": "all options and lists of files", "why_tests_cant": "Universally quantified over options and files; failures show only with options left out or files that cannot be loaded.", "anchors": ["xigt/scripts/xigt_query.py:main", "xigt/scripts/xigt_query.py:run", "xigt/scripts/xigt_query.py:make_job", "xigt/scripts/xigt_query.py:AgendaAction"]}
{"id": "C127", "title": "Every object can be shown", "statement": "repr() of every object gives a text with its ID and its value or the number of its contents, and xigt query --find can print every match.", "quantifier": "all objects", "why_tests_cant": "Universally quantified over objects and their references; repr() of an item computes its value.", "anchors": ["xigt/model.py:__repr__", "xigt/metadata.py:__repr__", "xigt/scripts/xigt_query.py:find_pattern"]}
{"id": "C128", "title": "Reading a path loses nothing but white space", "statement": "The tokens of an XigtPath, in order, are all of the path but white space: every character outside white space is in a token, and quoted strings stay whole.", "quantifier": "all strings", "why_tests_cant": "Universally quantified over strings; tests use paths that are well formed.", "anchors": ["xigt/xigtpath.py:tokenize", "xigt/xigtpath.py:xp_tokenizer_re"]}
{"id": "C129", "title": "The tier, IGT and corpus of an object are those it is in", "statement": "After any sequence of edits item.tier, item.igt, item.corpus, tier.igt, tier.corpus and igt.corpus are the objects in which the object is contained, directly or through others, and None if it is contained in none.", "quantifier": "all objects and sequences of edits", "why_tests_cant": "Universally quantified over sequences of edits; the answer is stored when an object is added and must not be left behind by later edits.", "anchors": ["xigt/model.py:corpus", "xigt/model.py:igt", "xigt/model.py:tier", "xigt/mixins.py:XigtContainerMixin"]}
{"id": "C130", "title": "From JSON to XML and back", "statement": "A JSON text as it is written is the same text after it is read, written as XML, read and written as JSON.", "quantifier": "all corpora and indentations", "why_tests_cant": "Universally quantified over corpora; an error shows only where the two formats keep different things.", "anchors": ["xigt/codecs/xigtxml.py:decode", "xigt/codecs/xigtxml.py:_build_elem", "xigt/codecs/xigtjson.py:_make_obj", "xigt/codecs/xigtjson.py:decode"]}
{"id": "C131", "title": "Objects in a container can be renamed", "statement": "After x.id = new, with a valid ID that no other object of the container of x has, x is found under the new ID and no longer under the old one, the others are found as before, and x can be removed; an invalid ID raises ValueError and changes nothing.", "quantifier": "all containers, objects, IDs and histories of edits", "why_tests_cant": "Universally quantified over histories and IDs; the index of the container is not told of the renaming, which shows only when the object is looked up or removed afterwards.", "anchors": ["xigt/mixins.py:id", "xigt/mixins.py:XigtContainerMixin", "xigt/mixins.py:refresh_index"]}
{"id": "C132", "title": "Equal IGTs answer alike", "statement": "If two IGTs are equal (==), items at the same places have the same value or raise the same exception, the referents and referrers of every ID are the same, and so are all attributes asked for with get_attribute.", "quantifier": "all pairs of equal IGTs", "why_tests_cant": "Universally quantified over pairs of IGTs that differ in what == ignores; tests compare with == and so cannot see a difference it does not see.", "anchors": ["xigt/model.py:__eq__", "xigt/mixins.py:__eq__", "xigt/mixins.py:get_attribute", "xigt/model.py:Item.value", "xigt/ref.py:referents", "xigt/ref.py:referrers"]}
{"id": "C133", "title": "What items say survives saving", "statement": "After a corpus is saved as XML or JSON and loaded again, the items at the same places have the same values, and the referents and referrers of every ID are the same.", "quantifier": "all corpora and indentations", "why_tests_cant": "Universally quantified over corpora; the values are computed from what is read, so that a difference that looks harmless may change them.", "anchors": ["xigt/codecs/xigtxml.py:encode", "xigt/codecs/xigtxml.py:decode", "xigt/codecs/xigtjson.py:encode", "xigt/codecs/xigtjson.py:decode", "xigt/model.py:Item.value"]}
{"id": "C134", "title": "Sorting does not change what items say", "statement": "After xigt sort, with whatever keys, and after sort_tiers(), every item has the value it had before.", "quantifier": "all corpora and keys", "why_tests_cant": "Universally quantified over corpora, keys and references of any depth.", "anchors": ["xigt/scripts/xigt_sort.py:run", "xigt/model.py:sort_tiers", "xigt/model.py:Item.value", "xigt/mixins.py:get"]}
{"id": "C135", "title": "What the validator passes has values", "statement": "If xigt validate reports no error in a corpus, value() raises no exception for any of its items.", "quantifier": "all corpora", "why_tests_cant": "Universally quantified over corpora; an item without a value shows only when that item is asked, and the validator looks at references one at a time.", "anchors": ["xigt/scripts/xigt_validate.py:validate_item", "xigt/scripts/xigt_validate.py:algnexpr_ids_in_referred_tier", "xigt/scripts/xigt_validate.py:get_referred_tier", "xigt/model.py:Item.value", "xigt/model.py:Item.resolve_ref"]}
{"id": "C136", "title": "What the Toolbox importer makes passes the validator", "statement": "xigt validate finishes with every corpus that the Toolbox importer makes, and reports no error; so it does with the file that is written.", "quantifier": "all records and options", "why_tests_cant": "Universally quantified over records and options; relates an importer, the serializer and the validator.", "anchors": ["xigt/importers/toolbox.py:toolbox_igts", "xigt/importers/toolbox.py:make_all_tiers", "xigt/importers/toolbox.py:make_tier", "xigt/scripts/xigt_validate.py:validate_corpus", "xigt/scripts/xigt_validate.py:validate_tier", "xigt/scripts/xigt_validate.py:validate_item"]}
{"id": "C137", "title": "What the ODIN importer makes passes the validator", "statement": "xigt validate finishes with every corpus that the ODIN importer makes, and reports no error; so it does with the file that is written.", "quantifier": "all blocks and options", "why_tests_cant": "Universally quantified over blocks and options; relates an importer, the serializer and the validator.", "anchors": ["xigt/importers/odin.py:odin_igts", "xigt/importers/odin.py:make_igt_raw_tier", "xigt/scripts/xigt_validate.py:validate_corpus", "xigt/scripts/xigt_validate.py:validate_tier", "xigt/scripts/xigt_validate.py:validate_item"]}
{"id": "C138", "title": "The validator says the same after saving and loading", "statement": "xigt validate says the same of equal corpora, and of the file that a corpus was saved to as of the corpus: the same report, or the same exception; and the command gives the same answer.", "quantifier": "all corpora, both formats and all indentations", "why_tests_cant": "Universally quantified over corpora; what the validator finds depends on what references lead to, not only on what is written in the file.", "anchors": ["xigt/scripts/xigt_validate.py:validate_corpus", "xigt/scripts/xigt_validate.py:validate_item", "xigt/scripts/xigt_validate.py:run", "xigt/codecs/xigtxml.py:load", "xigt/codecs/xigtjson.py:loads"]}
{"id": "C139", "title": "Sorting does not change what the validator finds", "statement": "If xigt validate finishes with a corpus, it finishes with the corpus that xigt sort makes of it, whatever the keys are, and at every level finds something in the one exactly if it does in the other; so it does around sort_tiers().", "quantifier": "all corpora and keys", "why_tests_cant": "Universally quantified over corpora, keys and references; relates two scripts, one of which looks things up by ID and by place.", "anchors": ["xigt/scripts/xigt_sort.py:run", "xigt/model.py:sort_tiers", "xigt/scripts/xigt_validate.py:validate_corpus", "xigt/scripts/xigt_validate.py:validate_tier", "xigt/scripts/xigt_validate.py:validate_item", "xigt/mixins.py:get"]}
{"id": "C140", "title": "The extensions of the schema allow what they are about", "statement": "What is written of a corpus is valid against syntax.rnc (dependencies.rnc) exactly if each tier has no type and is as in xigt.rnc, or is of the type syntax (dependencies) with its two references, its items have the references of the extension, and content, alignment and segmentation are blocked; a document both allow is one xigt.rnc allows.", "quantifier": "all corpora and indentations", "why_tests_cant": "Universally quantified over corpora; the grammars are nested and redefine each other's names, so that what they allow cannot be told from single documents.", "anchors": ["schema/extensions/syntax.rnc", "schema/extensions/dependencies.rnc", "schema/xigt-tier.rnc", "schema/xigt-item.rnc", "schema/extensions/NOTES.md", "xigt/codecs/xigtxml.py:encode"]}
{"id": "C141", "title": "Options that are not given have their documented defaults", "statement": "An importer uses the options that are given, and for the others the documented defaults; no configuration, null, an empty one and the documented one are the same, other options and the order do not matter, and options used again give the same; every configuration whose options are of the right kind and whose tiers have types can be used, and one that cannot leaves all files as they are.", "quantifier": "all configurations, input texts and file systems", "why_tests_cant": "Universally quantified over configurations and which options they have; the options are changed by the call, and alignments of markers are computed from three of them.", "anchors": ["xigt/importers/toolbox.py:xigt_import", "xigt/importers/toolbox.py:_make_tb_alignments", "xigt/importers/odin.py:xigt_import", "xigt/scripts/xigt_import.py:run"]}
{"id": "C142", "title": "Names do not matter", "statement": "When the IDs of an IGT are replaced by others, different ones by different ones and in references too, each item has the value it had, each ID has the references it had, renamed, and ancestors() and descendants() give the same tiers and items, step by step.", "quantifier": "all IGTs, renamings, reference attributes and objects to begin with", "why_tests_cant": "Universally quantified over renamings and IGTs; whether the characters of an ID matter cannot be told from examples whose IDs follow the usual conventions.", "anchors": ["xigt/model.py:value", "xigt/ref.py:resolve", "xigt/mixins.py:get", "xigt/mixins.py:refresh_index", "xigt/ref.py:referents", "xigt/ref.py:referrers", "xigt/query.py:ancestors", "xigt/query.py:descendants"]}
{"id": "C143", "title": "Paths find the same in equal corpora", "statement": "A path finds the same in equal corpora, and in a corpus saved and loaded again: the same results in the same order, the same strings, the same first result, counts, unique results and tallies of the query script, and the same exceptions.", "quantifier": "all paths, all pairs of equal corpora, all corpora saved in XML or JSON with any indentation", "why_tests_cant": "Universally quantified over paths and corpora; equality leaves out namespaces and the order of attributes, and each step, predicate and operator has to be insensitive to them.", "anchors": ["xigt/xigtpath.py:find", "xigt/xigtpath.py:findall", "xigt/xigtpath.py:iterfind", "xigt/xigtpath.py:_step", "xigt/xigtpath.py:_find_child", "xigt/xigtpath.py:_find_attr", "xigt/xigtpath.py:_make_predicate_test", "xigt/scripts/xigt_query.py:process_agenda", "xigt/codecs/xigtxml.py:loads", "xigt/codecs/xigtjson.py:loads"]}
{"id": "C144", "title": "JSON documents are read as they say", "statement": "A JSON document, whoever wrote it, is read as the corpus it describes: every object has the ID, type, attributes, namespaces, text and contents that its members say, prefixes of names are resolved by the declarations around them; the order of members and members of other names do not matter; and it is read exactly if such a corpus can be constructed.", "quantifier": "all JSON values of null, strings, arrays and objects, and all texts", "why_tests_cant": "Universally quantified over documents, also those that the encoder never writes.", "anchors": ["xigt/codecs/xigtjson.py:decode", "xigt/codecs/xigtjson.py:decode_igt", "xigt/codecs/xigtjson.py:decode_tier", "xigt/codecs/xigtjson.py:decode_item", "xigt/codecs/xigtjson.py:decode_metadata", "xigt/codecs/xigtjson.py:decode_meta", "xigt/codecs/xigtjson.py:decode_metachild", "xigt/codecs/xigtjson.py:active_namespaces", "xigt/codecs/xigtjson.py:loads"]}
{"id": "C145", "title": "Equal corpora are sorted to equal corpora", "statement": "The sort script gives equal corpora for equal corpora, whatever keys are given, and raises the same for both; so a corpus that was saved and loaded again is sorted as it would have been before.", "quantifier": "all lists of sort keys, all pairs of equal corpora, all corpora saved in XML with any indentation", "why_tests_cant": "Universally quantified over keys and corpora: the keys are found by paths, and the sort must not depend on anything that equality leaves out.", "anchors": ["xigt/scripts/xigt_sort.py:run", "xigt/scripts/xigt_sort.py:make_sortkey", "xigt/xigtpath.py:find", "xigt/model.py:XigtCorpus.__eq__", "xigt/codecs/xigtxml.py:loads"]}
{"id": "C146", "title": "Equal corpora are exported to the same LaTeX document", "statement": "Equal corpora are exported to the same LaTeX document, character by character, or exporting them raises the same; so a corpus gives the same document after it was saved and loaded again, if the format keeps its data.", "quantifier": "all pairs of equal corpora, all configurations and substitutions, all corpora saved in XML or JSON with any indentation", "why_tests_cant": "Universally quantified over corpora and configurations: aligning and merging columns has to be insensitive to what equality leaves out.", "anchors": ["xigt/exporters/latex.py:export_corpus", "xigt/exporters/latex.py:export_igt", "xigt/exporters/latex.py:group_alignments", "xigt/exporters/latex.py:align_tier", "xigt/model.py:XigtCorpus.__eq__", "xigt/codecs/xigtxml.py:loads", "xigt/codecs/xigtjson.py:loads"]}
{"id": "C147", "title": "Sorting changes the order of what a path finds, and nothing else", "statement": "A path finds in a corpus that was sorted what it found before, but for the order: the same objects at the same places, the same strings, as many results; and it raises something in the one exactly if it does in the other.", "quantifier": "all paths of the grammar, all corpora, all lists of sort keys", "why_tests_cant": "Universally quantified over paths, corpora and keys: every step, function and predicate has to be insensitive to the order at three levels.", "anchors": ["xigt/scripts/xigt_sort.py:run", "xigt/xigtpath.py:findall", "xigt/xigtpath.py:_step", "xigt/xigtpath.py:_find_descendant_or_self", "xigt/xigtpath.py:_find_referent", "xigt/xigtpath.py:_find_referrer", "xigt/xigtpath.py:_make_predicate_test", "xigt/ref.py:referents", "xigt/ref.py:referrers", "xigt/model.py:get_any"]}
{"id": "C148", "title": "A partition has what paths found in its files", "statement": "A path finds in the files that a partition writes, taken together, what it finds in the files that were partitioned: the same objects in the same objects up to the IGT, and the same strings, as many of each; and it raises something in the one exactly if it does in the other.", "quantifier": "all paths of the grammar that lead into IGTs and stay there, all input files, all key paths", "why_tests_cant": "Universally quantified over paths, corpora and keys: no step, function or predicate may depend on the corpus an IGT is in or on its place there.", "anchors": ["xigt/scripts/xigt_partition.py:run", "xigt/scripts/xigt_partition.py:write", "xigt/xigtpath.py:findall", "xigt/xigtpath.py:_step", "xigt/xigtpath.py:_find_child", "xigt/xigtpath.py:_find_descendant_or_self", "xigt/xigtpath.py:_find_referent", "xigt/xigtpath.py:_find_referrer", "xigt/xigtpath.py:_make_predicate_test", "xigt/model.py:get_any"]}
{"id": "C149", "title": "The schema of the Abkhaz example allows what the default schema does, and trees", "statement": "What is written of a corpus is valid against abkhaz-xigt.rnc exactly if it is as default-xigt.rnc says, but for notes vetted and judgment with a value, notes that are lists of phenomena, and tiers with trees, which tell where children are and whose items are nodes with children or leaves with the references of other items; so all that default-xigt.rnc allows is allowed, and every tier of the type syntax has children.", "quantifier": "all corpora and indentations", "why_tests_cant": "Universally quantified over corpora; the schema adds to names that the included files redefine, so that what it allows cannot be told from the one document of the example.", "anchors": ["examples/abkhaz/abkhaz-xigt.rnc", "schema/default-xigt.rnc", "schema/xigt-tier.rnc", "schema/xigt-item.rnc", "schema/xigt-meta.rnc", "xigt/codecs/xigtxml.py:encode_xigtcorpus"]}
{"id": "C150", "title": "Rewriting and sorting keep documents valid", "statement": "A document that one of the schemata allows is read exactly if no two siblings have the same identifier; and when it is read and written again, with any indentation, or read, sorted by any keys and written, the document that is written is valid against exactly those of the schemata that the first one was valid against.", "quantifier": "all documents that any of the schemata allows, all indentations, all lists of sort keys", "why_tests_cant": "Universally quantified over documents, keys and schemata: the reader, the sort script and the writer together have to keep whatever any of the grammars can see.", "anchors": ["xigt/codecs/xigtxml.py:default_decode", "xigt/codecs/xigtxml.py:default_encode_xigtcorpus", "xigt/codecs/xigtxml.py:loads", "xigt/codecs/xigtxml.py:dumps", "xigt/scripts/xigt_sort.py:run", "schema/xigt-structure.rnc", "schema/xigt.rnc", "schema/default-xigt.rnc", "examples/abkhaz/abkhaz-xigt.rnc"]}
{"id": "C151", "title": "A partition of valid documents is valid", "statement": "If every file that is partitioned is valid against a schema, then every file that the partition writes is valid against the same schema and can be read again, whatever the keys are and whichever IGTs of whichever files come together.", "quantifier": "all documents that the schema allows, all lists of files, key paths and output directories", "why_tests_cant": "Universally quantified over documents, keys and schemata: IGTs of several files with their own namespaces are written into new corpora.", "anchors": ["xigt/scripts/xigt_partition.py:run", "xigt/scripts/xigt_partition.py:write", "xigt/codecs/xigtxml.py:loads", "xigt/codecs/xigtxml.py:dumps", "schema/xigt-structure.rnc", "schema/xigt.rnc", "schema/default-xigt.rnc", "examples/abkhaz/abkhaz-xigt.rnc"]}
{"id": "C152", "title": "The command passes its arguments to its script", "statement": "xigt calls a script exactly if the first argument is its name, perhaps with -- before it; and it passes on all that follows, options too, as it is, but for -- directly after the name.", "quantifier": "all command lines", "why_tests_cant": "Universally quantified over lists of arguments of any form, also ones that look like options of the parser itself, since the arguments of scripts are matched by a pattern over the whole line.", "anchors": ["xigt/main.py:main", "xigt/main.py:cmdmap"]}
{"id": "C153", "title": "Scripts receive what their options say", "statement": "A command line on which options are written in full, in any order, apart, with =, glued to their letter or as repeated letters, around the files or before -- and the files, gives each script the files and, for each option, what is said of it: all values in order for keys and queries, the last value for the others, counts, or the default; sort ends with its usage if tier keys and tier dependencies are both given, import and export do if the input or the output is missing or a format is not known.", "quantifier": "all command lines of that form, of any length, for all six scripts", "why_tests_cant": "Universally quantified over sequences of options with arbitrary values and files: argparse decides what is an option, which value belongs to it and where files are by the whole line.", "anchors": ["xigt/scripts/xigt_sort.py:main", "xigt/scripts/xigt_partition.py:main", "xigt/scripts/xigt_query.py:main", "xigt/scripts/xigt_query.py:AgendaAction", "xigt/scripts/xigt_import.py:main", "xigt/scripts/xigt_export.py:main", "xigt/scripts/xigt_validate.py:main"]}
{"id": "C154", "title": "What the schema for ODIN allows", "statement": "What is written of a corpus is valid against odin-xigt.rnc exactly if every IGT tells its document, its lines and their tags, every tier with a type has one of the ten types, with the attributes of that type and items as that type says, metadata of tiers is plain or all provenance or all of token types, and the rest is as in xigt.rnc; so a corpus with IGTs is never valid against this schema and another one.", "quantifier": "all corpora, indentations and readings of xsd:dateTime", "why_tests_cant": "Universally quantified over corpora, whatever made them; the grammar nests four grammars whose names refer to each other, so what it allows cannot be told from the documents at hand.", "anchors": ["schema/extensions/odin-xigt.rnc", "examples/odin/odin-xigt.rnc", "schema/xigt-igt.rnc", "schema/xigt-tier.rnc", "schema/xigt-item.rnc", "schema/xigt-metadata.rnc", "schema/xigt-meta.rnc", "xigt/codecs/xigtxml.py:encode_xigtcorpus"]}
{"id": "C155", "title": "What a script receives is on the command line", "statement": "Whatever a script receives after its arguments were taken, however they were written: an attribute is its default, or an argument of the command line says its option, in full or shortened so far that it is no other option, or by a letter among letters; and each string in it is an argument, or follows = or letters in one. So sort works in place only if an argument from --in to --in-place says so, and on a file that is an argument; import and export have as output only what -o or --output says; and partition writes to a directory that is an argument.", "quantifier": "all command lines, of all six scripts and every parser of that kind", "why_tests_cant": "Universally quantified over lists of arguments of any form: argparse abbreviates, splits letters and matches files by patterns over the whole line, and a wrong guess would overwrite files nobody named.", "anchors": ["xigt/scripts/xigt_sort.py:main", "xigt/scripts/xigt_partition.py:main", "xigt/scripts/xigt_query.py:main", "xigt/scripts/xigt_import.py:main", "xigt/scripts/xigt_export.py:main", "xigt/scripts/xigt_validate.py:main"]}
{"id": "C156", "title": "Files change only as the command line says", "statement": "Whatever arguments xigt is called with, and however it ends: query, validate, process, help and wrong command lines change nothing; sort changes at most a file that is an argument, and only if an argument from --in to --in-place is there; import and export change only the output that -o or --output says, import from ODIN also files in it and export to itsdb what is below it; partition only makes a directory that is an argument and was not there, and files in it.", "quantifier": "all command lines and file systems", "why_tests_cant": "Universally quantified over arguments and file systems, with failures at any point: tests look at files they expect to change, not at all others.", "anchors": ["xigt/main.py:main", "xigt/scripts/xigt_sort.py:run", "xigt/scripts/xigt_partition.py:run", "xigt/scripts/xigt_query.py:run", "xigt/scripts/xigt_validate.py:run", "xigt/scripts/xigt_import.py:run", "xigt/scripts/xigt_export.py:run", "xigt/scripts/xigt_process.py:main"]}
{"id": "C157", "title": "The command does what its command line says", "statement": "For command lines with options written in full: xigt sort sorts the file that is named by all keys that are given in their order and, if --in-place is anywhere on the line, replaces it by the sorted corpus and prints nothing, else prints that and changes nothing; partition puts the IGTs of the files that are named into the new directory that is named, by the last key path and default key; query asks of each file, in order, what the options ask, in order; validate prints the headings and ends with the status of the options and files; import and export make the last output that is said from the last input with the last configuration and format, and change nothing else. Sorting in place twice is as once.", "quantifier": "all command lines of that form, of any length, all file systems", "why_tests_cant": "Universally quantified over options in any order and form, files and file systems: tests call functions of scripts with ready arguments, so what is lost between the command line and the files is not seen.", "anchors": ["xigt/main.py:main", "xigt/scripts/xigt_sort.py:run", "xigt/scripts/xigt_sort.py:main", "xigt/scripts/xigt_partition.py:run", "xigt/scripts/xigt_query.py:run", "xigt/scripts/xigt_query.py:AgendaAction", "xigt/scripts/xigt_validate.py:main", "xigt/scripts/xigt_import.py:run", "xigt/scripts/xigt_export.py:run"]}
{"id": "C158", "title": "Exactly JSON texts are read, each as what it says", "statement": "Of texts without numbers, true, false and halves of surrogate pairs, exactly those of the grammar of JSON are read, with any white space and any way to write the characters of strings, and each as the one value it says, where of members with the same key the last counts; all others are a ValueError. So a text is loaded as a corpus exactly if it is in the grammar and what it says is that corpus; two texts that say the same are loaded as the same; and what is dumped, with any indentation, is in the grammar.", "quantifier": "all texts", "why_tests_cant": "Universally quantified over texts, with nesting of any depth: tests load what dump has written, which is one of many texts for each value, and a few broken ones.", "anchors": ["xigt/codecs/xigtjson.py:load", "xigt/codecs/xigtjson.py:loads", "xigt/codecs/xigtjson.py:dumps", "xigt/codecs/xigtjson.py:decode"]}
{"id": "C159", "title": "XML documents are read as they say", "statement": "Exactly the texts in the grammar of documents are read in which all prefixes are declared, by declarations that are allowed, and no attribute has its name twice by two prefixes; each name is resolved by the innermost declaration around it. Each such document is loaded as the one corpus it says, if identifiers and names in that are valid: with the namespaces declared around each object, attributes but ID and type, text that is not blank, and children with the right names in their order, others being left out.", "quantifier": "all texts", "why_tests_cant": "Universally quantified over texts, with nesting of any depth: tests load documents that were written by dump or by hand for the test, none with prefixes declared twice.", "anchors": ["xigt/codecs/xigtxml.py:load", "xigt/codecs/xigtxml.py:loads", "xigt/codecs/xigtxml.py:default_decode", "xigt/codecs/xigtxml.py:_qname_split", "xigt/codecs/xigtxml.py:default_decode_xigtcorpus", "xigt/codecs/xigtxml.py:default_decode_igt", "xigt/codecs/xigtxml.py:default_decode_tier", "xigt/codecs/xigtxml.py:default_decode_item", "xigt/codecs/xigtxml.py:default_decode_metadata", "xigt/codecs/xigtxml.py:default_decode_meta", "xigt/codecs/xigtxml.py:default_decode_metachild"]}
{"id": "C160", "title": "The validator finds in a partition what it found in its files", "statement": "What the validator reports of the IGTs, tiers and items in the files of a partition is, IGT by IGT, what it reported of them in the files that were partitioned, each of them once, however the IGTs come together; so if it finds no problem in any of those files, it finds none in the files of the partition, also as they are written and read again, and the other way round.", "quantifier": "all files, keys, orders of files, levels of problems and depths of recursion", "why_tests_cant": "Universally quantified over corpora and keys: IGTs of several files come together in new corpora, and the validator remembers identifiers across IGTs.", "anchors": ["xigt/scripts/xigt_partition.py:run", "xigt/scripts/xigt_partition.py:write", "xigt/scripts/xigt_validate.py:validate_corpus", "xigt/scripts/xigt_validate.py:validate_igt", "xigt/scripts/xigt_validate.py:id_is_unique", "xigt/scripts/xigt_validate.py:run", "xigt/codecs/xigtxml.py:load", "xigt/codecs/xigtxml.py:dump"]}
{"id": "C161", "title": "What xigt validate prints tells what is wrong where", "statement": "xigt validate prints on its standard output, file by file in order, that a file is not XML, with its number and name, or a heading for each element in or below which something of the level or above was found, in the order of the document, and nothing else; what is printed for a file does not depend on later ones, and on earlier ones only by its number and their IDs. The status is 0 exactly if the program comes to its end with no heading printed. If two runs over as many files print the same, the same files are not XML and in each of the others the same elements are wrong.", "quantifier": "all lists of files, options and depths of recursion", "why_tests_cant": "Universally quantified over files and reports: that different reports are never printed alike cannot be seen from examples.", "anchors": ["xigt/scripts/xigt_validate.py:run", "xigt/scripts/xigt_validate.py:print_report", "xigt/scripts/xigt_validate.py:format_heading", "xigt/scripts/xigt_validate.py:filter_empty_reports", "xigt/scripts/xigt_validate.py:main"]}
{"id": "C162", "title": "Queries print the same of saved and sorted corpora, and counts add up over a partition", "statement": "What xigt query prints, and how it ends, is the same for a corpus and for one that is equal to it or was loaded from its file. If a corpus is sorted, the heading and the table of results are the same, and the lines of the matches are the same in another order. The counts of a path in the files of a partition add up to those in the files that were partitioned.", "quantifier": "all corpora, lists of files, agendas, paths, descriptions, sort keys and partition keys", "why_tests_cant": "Universally quantified over corpora and paths: two programs are run one after the other, and each is tested on its own with a few corpora.", "anchors": ["xigt/scripts/xigt_query.py:run", "xigt/scripts/xigt_query.py:make_job", "xigt/scripts/xigt_query.py:process_agenda", "xigt/scripts/xigt_query.py:find_pattern", "xigt/scripts/xigt_query.py:tally_pattern", "xigt/scripts/xigt_query.py:unique_pattern", "xigt/scripts/xigt_query.py:count_pattern", "xigt/scripts/xigt_query.py:print_results", "xigt/scripts/xigt_sort.py:run", "xigt/scripts/xigt_partition.py:run", "xigt/xigtpath.py:findall"]}
{"id": "C163", "title": "The input of an exported [incr tsdb()] item is its phrase or its words", "statement": "By default the i-input of an IGT is the text of the first phrase, or if there is no tier of phrases, the values of all its words, in order and with one blank between them, from which the words can be read if none is empty or has a blank in it. Each IGT gets one row, in order, with the numbers 0, 10, 20 and so on, and equal IGTs have the same input.", "quantifier": "all corpora and depths of recursion", "why_tests_cant": "Universally quantified over IGTs: the expression is a text in the configuration that is evaluated when rows are made, so no test sees what types its value can have.", "anchors": ["xigt/exporters/itsdb.py:DEFAULT_CELLS", "xigt/exporters/itsdb.py:prepare_config", "xigt/exporters/itsdb.py:export_corpus", "xigt/exporters/itsdb.py:export_igt", "xigt/mixins.py:XigtContainerMixin.select", "xigt/model.py:Item.get_content"]}
{"id": "C164", "title": "Exports of sorted and partitioned corpora have the same examples", "statement": "A corpus whose IGTs are sorted can be exported exactly if the corpus can. Its LaTeX document has the same block for each IGT, in the new order; its rows for [incr tsdb()] have the same cells for each IGT, numbered anew in the new order. If tiers are sorted, by keys or by dependencies, and those that are shown keep their order, the block of the IGT is the same. The files of a partition can be exported exactly if those that were partitioned can, and the documents have the same blocks.", "quantifier": "all corpora, sort keys, partition keys, configurations and depths of recursion", "why_tests_cant": "Universally quantified over corpora and keys: two programs are run one after the other, and no test compares what they make together.", "anchors": ["xigt/exporters/latex.py:xigt_export", "xigt/exporters/latex.py:export_corpus", "xigt/exporters/latex.py:export_igt", "xigt/exporters/itsdb.py:export_corpus", "xigt/exporters/itsdb.py:export_igt", "xigt/scripts/xigt_sort.py:run", "xigt/scripts/xigt_partition.py:run", "xigt/mixins.py:XigtContainerMixin.sort", "xigt/model.py:Igt.sort_tiers"]}
{"id": "C165", "title": "Exporting to [incr tsdb()] makes one profile, of all rows, or none", "statement": "With a configuration as it should be, or without one, xigt export -f itsdb makes one profile, at the output, with the Relations file that the configuration names, or if it names none, that of LOGON if there is one, and with the rows of the IGTs in order, numbered as the configuration says; if an IGT cannot be read or exported, the library is given the rows before it and then the exception. Without a Relations file nothing is written at all, and if the configuration names a file the environment makes no difference. A profile was made if the status is 0.", "quantifier": "all configurations, corpora, environments and file systems", "why_tests_cant": "Universally quantified over configurations and file systems: the library is not installed for the tests, and which file is taken depends on an environment variable.", "anchors": ["xigt/exporters/itsdb.py:xigt_export", "xigt/exporters/itsdb.py:prepare_config", "xigt/exporters/itsdb.py:export_corpus", "xigt/exporters/itsdb.py:export_igt", "xigt/scripts/xigt_export.py:run"]}
{"id": "C166", "title": "The log of sorting and partitioning says what is done, and changes nothing", "statement": "xigt sort logs nothing without -v. With -v it logs one line for each stage that is asked for (IGTs, tiers, items), in this order; if a stage fails its line is the last, and if the file cannot be read there is none. xigt partition by a key logs, with -v, one line for each file and then one for each key, in the order in which the keys are first met, with the number of different files that have an IGT with this key; if a file or a key fails its line is the last. Without -v it logs one error, if the output directory is there already or cannot be made, and otherwise nothing. More -v never show less. How the programs end, what they print and which files they change does not depend on the log.", "quantifier": "all command lines with options in full, corpora, keys and file systems", "why_tests_cant": "Universally quantified over files and keys: the tests do not look at the log, and its last line is most needed for input that no test has.", "anchors": ["xigt/scripts/xigt_sort.py:run", "xigt/scripts/xigt_sort.py:main", "xigt/scripts/xigt_partition.py:run", "xigt/scripts/xigt_partition.py:create_outdir", "xigt/scripts/xigt_partition.py:index", "xigt/scripts/xigt_partition.py:main"]}
{"id": "C167", "title": "One Toolbox record does not stop another from being imported", "statement": "A Toolbox record with a key is imported exactly if its key makes an identifier, Toolbox could align its fields, no tier is made twice, all tiers have descriptions and identifiers, and each line that is aligned with another has a cell for each token of it and tokens only where there is one (and something to find them in, if they are words or morphemes). Files after each other give their IGTs after each other. If all records with a key fit, there is one IGT for each; one that does not fit is left out, and the others are imported as without it.", "quantifier": "all records and options", "why_tests_cant": "Universally quantified over files of records: the importer handles two exceptions of one record, and which records raise others is not to be seen from examples.", "anchors": ["xigt/importers/toolbox.py:toolbox_igts", "xigt/importers/toolbox.py:make_igt", "xigt/importers/toolbox.py:make_all_tiers", "xigt/importers/toolbox.py:make_tier", "xigt/importers/toolbox.py:make_phrase_tier", "xigt/mixins.py:XigtContainerMixin.extend"]}
{"id": "C168", "title": "Every Toolbox record is imported or named in the log", "statement": "If importing a Toolbox file finishes, every record with a key is an IGT, or there is an error in the log with the identifier it would have had, both in the order of the records, and never both; with the verbosity of xigt import all these errors are shown, so IGTs and errors are as many as records with a key. There is no error exactly if all these records fit. If importing stops, the log is that of the records before the one that stops it, and names this one too. The log changes nothing.", "quantifier": "all records, options and verbosities", "why_tests_cant": "Universally quantified over files of records: the tests do not look at the log, and it is the only trace of records that are left out.", "anchors": ["xigt/importers/toolbox.py:make_igt", "xigt/importers/toolbox.py:toolbox_igts", "xigt/scripts/xigt_import.py:main"]}
{"id": "C169", "title": "An Igt warns that an item already exists exactly if another item has its ID", "statement": "When an Igt is made, or its indices are refreshed, there is a warning that an item already exists for each item that differs from the last one before it with the same ID. So a new Igt warns of an ID exactly if two of its items with it are different; if the items have different IDs there is no warning, and if there was none there is none when it is refreshed again. There is a warning whenever two items have the same ID, and only then. Warnings change nothing.", "quantifier": "all igts", "why_tests_cant": "Universally quantified over igts: the tests do not look at warnings, and whether an item is the same as another is a comparison of all it contains.", "anchors": ["xigt/model.py:Igt.refresh_indices", "xigt/model.py:Igt.__init__", "xigt/model.py:Item.__eq__"]}
{"id": "C170", "title": "What is imported from Toolbox is found by its name, and its references lead there and back", "statement": "In an IGT imported from Toolbox every tier and every item has an ID, get_any() finds it by this ID and get_item() finds every item; a tier either has no references, and neither do its items, or it has one, which leads to a tier of the IGT, and those of its items lead to items of this tier; what is referred to has among its referrers what refers to it. No two items have the same ID and nothing is warned of. It is the same in what is read when the corpus was written to a file.", "quantifier": "all records and options", "why_tests_cant": "Universally quantified over records and tier IDs: IDs of items are made of IDs of tiers and numbers, and whether two are the same depends on the number of tokens in a line.", "anchors": ["xigt/importers/toolbox.py:toolbox_igts", "xigt/importers/toolbox.py:make_all_tiers", "xigt/importers/toolbox.py:make_tier", "xigt/model.py:Igt.get_any", "xigt/model.py:Igt.get_item", "xigt/model.py:Igt.refresh_indices", "xigt/ref.py:dereference", "xigt/ref.py:referrers"]}
{"id": "C171", "title": "A line of an ODIN block is found by the ID of the block and its number", "statement": "In the corpus imported from ODIN, and in what is read when it was written to a file, the IGT with the ID of a block has a tier r, and this has for each line of the block an item r1, r2, ...; get_item() finds it too, its value is the text of the line, cleaned, and its attributes are what else the block says of the line. There are no other items, and nothing is warned of.", "quantifier": "all blocks and options", "why_tests_cant": "Universally quantified over blocks: the tests import no ODIN file and look up none of its lines.", "anchors": ["xigt/importers/odin.py:odin_igts", "xigt/importers/odin.py:make_igt", "xigt/importers/odin.py:make_igt_raw_tier", "xigt/mixins.py:XigtContainerMixin.get", "xigt/model.py:Igt.get_item", "xigt/model.py:Igt.refresh_indices", "xigt/model.py:Item.value"]}
{"id": "C172", "title": "The Toolbox importer passes on what is warned of in a record, with the identifier of the record", "statement": "Every warning issued while a Toolbox record is imported, whether it becomes an IGT or is left out, is passed on, with the identifier of the record, in the order of the records. Catching the warnings and passing them on changes nothing.", "quantifier": "all records, options and warnings", "why_tests_cant": "Universally quantified over files of records and what is warned of in them: the tests import no Toolbox file and do not look at warnings.", "anchors": ["xigt/importers/toolbox.py:make_igt", "xigt/importers/toolbox.py:make_all_tiers", "xigt/importers/toolbox.py:toolbox_igts", "xigt/model.py:Igt.refresh_indices"]}
{"id": "C173", "title": "The deprecated text of a Metadata is its metas, and a string is put in an untyped Meta", "statement": "Metadata.text and Metadata.metas are the same: a Metadata made with a list as its text, or to whose text a list is assigned, contains this list, if these are Metas no two of which have the same ID, and otherwise there is an error; what it contained before is replaced, and nothing else of it changes. Assigning to text what it is changes nothing. A string is put in an untyped Meta, whose text it is. Giving both text and metas is an error. Each use of text gives a warning, and a string another.", "quantifier": "all lists of objects and strings", "why_tests_cant": "Universally quantified over lists and strings: the tests make no Metadata with text, and do not look at warnings.", "anchors": ["xigt/metadata.py:Metadata.__init__", "xigt/metadata.py:Metadata.metas", "xigt/metadata.py:Metadata.text", "xigt/metadata.py:metadata_text_warning", "xigt/mixins.py:XigtContainerMixin.append", "xigt/mixins.py:XigtContainerMixin.extend"]}
{"id": "C174", "title": "What is imported from Toolbox is exported to [incr tsdb()] with its words", "statement": "If records were imported from Toolbox, exporting them to [incr tsdb()] with the default cells succeeds and gives a row for each IGT, numbered 0, 10, 20, ...; its i-input is a string, the tokens of the line of words of the record joined by blanks, and the empty string if the record has no line of words. It is the same if the corpus was written to a file and read again before.", "quantifier": "all records and options with one tier of words", "why_tests_cant": "Universally quantified over records and options; the tests neither import from Toolbox nor export to [incr tsdb()].", "anchors": ["xigt/importers/toolbox.py:toolbox_igts", "xigt/importers/toolbox.py:make_all_tiers", "xigt/importers/toolbox.py:make_phrase_tier", "xigt/exporters/itsdb.py:export_corpus", "xigt/exporters/itsdb.py:export_igt", "xigt/exporters/itsdb.py:DEFAULT_CELLS"]}
{"id": "C175", "title": "The IGTs of a corpus are what was assigned, in every mode", "statement": "Assigning a list of IGTs to the igts of a corpus succeeds exactly if no ID is used twice in it, in every mode; then reading igts gives this list, now and later. Otherwise there is an error. Neither the mode nor the source of the corpus changes.", "quantifier": "all corpora, modes, sources and lists", "why_tests_cant": "Universally quantified over modes, sources and lists; the tests do not assign to igts in another mode than full.", "anchors": ["xigt/model.py:XigtCorpus.igts", "xigt/model.py:XigtCorpus.__iter__", "xigt/model.py:XigtCorpus.__init__", "xigt/mixins.py:XigtContainerMixin.extend", "xigt/mixins.py:XigtContainerMixin.clear"]}
{"id": "C176", "title": "Adding to a container and removing from it undo each other", "statement": "After any history, if an object was appended to a container or inserted anywhere, removing it succeeds and every container is as before: the same objects in the same order, and the same answer to every subscription. Likewise if an object is removed and inserted again at its position, and if another object is assigned to a position and then the one that was there. A container that is cleared and extended by the objects it had is as before.", "quantifier": "all histories of calls on all containers, all objects and positions", "why_tests_cant": "Universally quantified over histories; the tests remove single objects of fixed containers.", "anchors": ["xigt/mixins.py:XigtContainerMixin.append", "xigt/mixins.py:XigtContainerMixin.insert", "xigt/mixins.py:XigtContainerMixin.remove", "xigt/mixins.py:XigtContainerMixin.__setitem__", "xigt/mixins.py:XigtContainerMixin._create_id_mapping"]}
