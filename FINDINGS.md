# Where the code does not do what was expected of it

Generated by tools/mkfindings.py from the comments of the refuting theorems. Each of these theorems is about the model: it gives an input, or a class of inputs, for which the property fails.

## C01 Lookup by ID agrees with contents after any history

After any sequence of append/insert/extend/remove/del/item-assignment/clear/sort/refresh_index calls on a container (corpus, igt, tier, metadata, meta), each of which may succeed or raise, c[some_id] returns an object that is in the container and has that ID, and every contained object with an ID is returned by c[its ID]; IDs not in the container raise KeyError. (Item assignment that raises is the one exception: see C03.)

- `C01_refuted` (Verif/Container/Props.lean): as stated fails: removing an item that is not in the container but whose ID is taken by another raises ValueError and leaves the contained one unreachable by its ID.

## C02 No two contained objects share an ID

In every state reached by such a history no two positions of a container hold objects with the same (non-None) ID; adding an object whose ID is taken raises XigtError.

- `C02_refuted` (Verif/Container/Props.lean): as stated fails in the same way: afterwards an item with the same ID can be added.

## C03 A rejected mutation leaves the container as it was

If append, insert, remove, del or item assignment raises (wrong type, duplicate ID, absent object, bad index) the sequence of contained objects and all lookups by ID are unchanged; if extend raises, exactly the objects before the offending one were added.

- `C03_refuted_setitem` (Verif/Container/Props.lean): fails for item assignment: `c[0] = x` with the ID of `x` taken at another position raises XigtError but the object at position 0 can no longer be found by its ID.
- `C03_refuted_remove` (Verif/Container/Props.lean): fails for `remove` of an object that is not contained while its ID is.

## C04 Contained objects know their container

Every object contained in a tier/igt/corpus reports that container as its tier/igt/corpus, for any history in which an object is put into one container only.

- `C04_refuted_setitem` (Verif/Container/Props.lean): fails for item assignment, which does not set the parent.
- `C04_refuted_rejected_append` (Verif/Container/Props.lean): also fails if a rejected attempt counts as not being put: a rejected append to container 1 re-parents an item that stays in container 0.

## C07 del removes the addressed element

del c[k] removes exactly the element at the addressed position and keeps the order of the others.

- `C07_refuted` (Verif/Container/Props.lean): fails for equal items without ID: `del c[2]` removes position 0.

## C09 IDs accepted by the model can be referred to

Every ID that can be given to an object (assignment does not raise ValueError) is recovered by ref.ids() when used as a reference expression.

- `C09_refuted` (Verif/Ref/Props.lean): fails: the ID check is not anchored at the end, so `'a b'` is accepted as an ID although no reference expression mentions it (`ids('a b') = ['a', 'b']`).

## C100 Every document the schema allows is read, with everything in it

Every text of a document that schema/xigt-structure.rnc allows is loaded without an error, and the corpus has an object for every element, with its attributes and text.

- `C100_refuted` (Verif/Schema/LoadExamples.lean): refuted: the schema does not say that identifiers are unique, the containers do.
- `C100_refuted_mixed` (Verif/Schema/LoadExamples.lean): refuted also by text after a child in metadata, which is lost: two documents that differ are read as the same
- `C100_refuted_id` (Verif/Schema/LoadExamples.lean): refuted also by `id` and `type` inside a meta, which are lost
- `C100_refuted_igt` (Verif/Schema/LoadExamples.lean): refuted also by elements called `igt` inside a meta
- `C100_refuted_type` (Verif/Schema/LoadExamples.lean): refuted also by the type of a corpus, which becomes an attribute
- `C100_refuted_name` (Verif/Schema/LoadExamples.lean): refuted also by names of XML that `name_re` does not know, e.g. `col·lecció` (here without accent)

## C101 The alignment expressions the schema allows are those the code reads

A string is a valid alignment expression (AlgnExpr) exactly if it is written from selections of identifiers and unsigned spans joined by commas and plus signs, and the code divides every valid string into the same identifiers, selections, spans and text as the schema does.

- `C101_refuted` (Verif/Schema/Align.lean): refuted: the XML Schema class `\w` has symbols, so `a+b` is a valid identifier, and a valid alignment to the item of this name; but the code reads it as references to the items `a` and `b`, while `a+1`, likewise valid, is read as a reference to `a` and a delimiter `+1`.
- `C101_refuted_space` (Verif/Schema/Align.lean): refuted, the other way: a list of identifiers separated by spaces, which the code reads (and which `ids` is documented to read), is not valid.

## C102 What the importers write is valid

Everything the ODIN importer and the Toolbox importer (with the default options) import and write is a document that schema/xigt-structure.rnc allows, with every indentation.

- `C102_refuted` (Verif/Schema/Imported.lean): refuted: a block without identifier is imported (and read, C76), but what is written is not valid, with whatever indentation.
- `C102_refuted_key` (Verif/Schema/Imported.lean): refuted: the key of a Toolbox record with a space becomes an identifier (`igt_id` checks only the first character), and what is written is not valid, with whatever indentation.

## C103 What is written is valid against xigt.rnc

Every corpus that is written as a document schema/xigt-structure.rnc allows is, with every indentation, a document that schema/xigt.rnc allows.

- `C103_refuted` (Verif/Schema/XigtExamples.lean): refuted: the structure xigt.rnc describes "without extensions" has no tier types, so that a corpus with a tier of words (which xigt-structure.rnc allows) is not written as a valid document.
- `C103_refuted_text` (Verif/Schema/XigtExamples.lean): refuted also by text in a `meta`: `mixed { AnyElement }*` asks for an element after it. xigt-structure.rnc, with `text | AnyElement*`, allows it.

## C104 What the ODIN importer writes is valid against odin-xigt.rnc

Everything the ODIN importer imports and writes is a document that schema/extensions/odin-xigt.rnc allows, with every indentation and with every setting of keep_headers.

- `C104_refuted` (Verif/Schema/OdinSchema.lean): refuted: with `keep_headers`, the importer writes a `meta` of type `odin-header`, which odin-xigt.rnc does not know.

## C105 What the Toolbox importer writes is valid against default-xigt.rnc

Everything the Toolbox importer imports and writes with the default options is a document that schema/default-xigt.rnc allows; of corpora in general those without other attributes than the schema lists and with tiers and items of the types it lists are written as valid documents.

- `C105_refuted_pos` (Verif/Schema/ToolboxDefault.lean): refuted: with the options the importer has by default, a record with parts of speech is written with a tier of a type the default schema does not have.
- `C105_refuted_attribute` (Verif/Schema/ToolboxDefault.lean): refuted: with the options the importer has by default, a record below a text with a name is written with the attribute `corpus-id`, which the default schema does not have.

## C106 Importing ODIN files changes only its output files

Importing a directory (or a file) changes no file but the output files, in or under the output path; every input file whose name has the suffix is read as it was and gives the file of the same name with .xml for the suffix, up to the first error; a directory and a file do not go together and nothing is changed then.

- `C106_refuted` (Verif/Files/ImportProps.lean): refuted: if the file to import and the one to write are the same (also by different names), it is emptied before it is read: all that was in it is lost, and no error is reported where nothing can be imported.
- `C106_refuted_directory` (Verif/Files/ImportProps.lean): refuted for directories: with the suffix `.xml` and the same directory the inputs are lost.

## C107 Partitioning changes no file outside the output directory

Partitioning makes a new directory and changes no file outside it, whatever happens; it succeeds just if all files can be read, keyed and written, and then the directory has exactly one file for each group, with what the input files had at the start. If there is such a directory, the script ends with status 1 and nothing is changed.

- `C107_refuted` (Verif/Files/Partition.lean): refuted: keys are taken as paths. Here the first group replaces the input file, and the second, which is then read from it, is lost: no file contains the second IGT any more, and no error is reported.

## C108 Sorting in place changes only the file, and only by sorting

xigt sort changes no file but, with --in-place, the one it sorts, and this only if there is no exception; the file then has the sorted corpus, in which the same objects are in another order, and can be read as exactly this corpus. Without --in-place what is printed is that document. Sorting the file again leaves it as it is.

- `C108_refuted` (Verif/Files/Sort.lean): refuted: a file with a default namespace inside a `meta` can be sorted in place without an error, even without a sort key, and cannot be read afterwards

## C109 What was read can be written and read again

A corpus that was read from a document can be written, with every indentation, and what is read from the text that was written is the same corpus, including namespace maps and the order of attributes, however the text is cut into chunks.

- `C109_refuted` (Verif/Xml/Again.lean): refuted: a default namespace inside a `meta` is read, but written with an empty prefix (xigtxml.py:357-367), and what was written cannot be read again
- `C109_refuted_xml` (Verif/Xml/Again.lean): refuted: an element in the namespace of the prefix `xml` is read, but written without a namespace (xigtxml.py:359-361 looks only among the declared namespaces, unlike 375-381 for attributes)

## C11 == is symmetric across classes

x == y and y == x give the same answer for objects of any two classes of the model.

- `C11_refuted` (Verif/Equality/Props.lean): fails: an empty Item equals an empty Meta but not the other way round; likewise Meta and MetaChild, Item and MetaChild.

## C110 Sorting what was sorted changes nothing

If xigt sort makes one corpus of another, it makes this corpus of itself, with the same arguments.

- `C110_refuted` (Verif/Scripts/SortTwice.lean): refuted: IGTs are sorted before their tiers are (xigt_sort.py:13-24), so by a key that looks at the tiers they may be out of order in the result, and sorting this again changes it

## C111 The exported LaTeX is read by TeX as one complete document

TeX reads the exported text as the preamble, one block for each IGT in order, and the ending: an example with one row of groups for each tier shown, each group holding nothing but the printed characters of its items, and the translations, or nothing for an IGT with too few tiers; nothing in the data is read as a command, a group or a comment.

- `C111_refuted` (Verif/Files/Export.lean): refuted: an IGT that cannot be shown, whose ID (any string that begins with a letter is accepted) has a line break, gets out of its comment: what follows the line break is read by TeX, and here it ends the document before the other IGTs
- `C111_refuted_par` (Verif/Files/Export.lean): refuted for texts: a text with an empty line ends a paragraph inside a group, where TeX stops with an error

## C112 Exporting LaTeX changes only the output file, which is a complete document

xigt export changes no file but the output; this is the document with the blocks of all IGTs of the input in order, unless there is an exception.

- `C112_refuted` (Verif/Files/Export.lean): refuted: if the second IGT cannot be exported (its tiers have no IDs), there is an exception, but a file has been written with the beginning of a document: TeX does not find its end

## C114 Comments survive rewriting

A comment in a document that is sorted in place is still there afterwards.

- `C114_refuted` (Verif/Files/Comments.lean): refuted: `xigt sort --in-place` on a file in which nothing is to be sorted removes its comments

## C116 Attributes are written in one order

In every element that is written, namespace declarations come first, then id, type, alignment, content and segmentation, then the other attributes in order of their names; so equal elements are written with the same text.

- `C116_refuted` (Verif/Xml/AttrSort.lean): refuted (python 3.8 and later): the order is that of the dictionary of attributes (xigtxml.py:373-384), so equal corpora are written with different texts, and attributes are not in the order of their keys

## C117 What is written in any encoding can be read

The bytes that dump() writes with any encoding= that the parser knows are read by load() as an equal corpus; characters that the encoding lacks are written as references.

- `C117_refuted` (Verif/Xml/BytesProps.lean): refuted: a corpus that XML keeps, but which has an attribute called é, is written in US-ASCII as a document that cannot be read, as names have no references

## C118 loads() reads what dumps() returned, in every encoding

If dumps() is given an encoding= and returns bytes, loads() reads them as an equal corpus.

- `C118_refuted` (Verif/Xml/BytesProps.lean): refuted: `loads` takes what `dumps` returns in ISO 8859-1 for UTF-8 (xigtxml.py:59). A text of é is not read (the bytes are no UTF-8), and a text of Ã© is read as é, without an error

## C119 From XML to JSON and back

A corpus that is read from XML, written as JSON, read again, written as XML and read is the same corpus.

- `C119_refuted` (Verif/Xml/Convert.lean): refuted: in JSON an object that declares a namespace has only the new one (C67), so the prefix of another namespace is not found when it is written as XML (xigtxml.py:359-361): the element comes out of its namespace
- `C119_refuted_type` (Verif/Xml/Convert.lean): refuted of an empty type, which JSON leaves out (xigtjson.py:192-193)

## C12 != is the negation of ==

x != y is True exactly when x == y is False.

- `C12_refuted` (Verif/Equality/Props.lean): fails for every class but Item: two empty containers with different IDs are neither equal nor unequal.

## C121 The exit status of xigt validate says whether there are errors

xigt validate ends with status 0 exactly if all files can be read and no error is found in any of them, with whatever verbosity it is run.

- `C121_refuted` (Verif/Scripts/ValidateMain.lean): fails: the same files give different exit statuses for different verbosities. With `-q` an error is not counted, with `-v` a warning is; and a file that cannot be parsed is passed over in silence.

## C122 The referents and referrers of a tier or item are its own

x.referents() of a tier or item x gives the IDs in the reference attributes of x itself; x.referrers() gives the tiers, or items, that have the ID of x in such an attribute; without IGT or ID they raise XigtError.

- `C122_refuted` (Verif/Igt/ObjRefs.lean): fails: an item with the ID of a tier is given the referents of the tier (with a list of attributes; without, the tier is given those of the item).

## C124 Following references finds the objects they name

dereference_all() gives for each ID in the attribute, in order, the tier or item of the igt that has this ID, or None if none has; dereference() gives the first of them; get_aligned_tier() gives the tier named, and raises XigtAttributeError if the tier has no such attribute.

- `C124_refuted` (Verif/Igt/Span.lean): fails of tiers without the attribute: `get_aligned_tier` raises NameError instead of a XigtAttributeError.
- `C124_refuted_removed` (Verif/Igt/Span.lean): fails after an item was removed: it is still found by references to it.

## C125 Reference attributes can be assigned

After any assignments to alignment, content and segmentation of a tier or item each is what was assigned to it last, other attributes are unchanged, references can be read, and segmentation does not occur with the others.

- `C125_refuted` (Verif/Attr/RefSetters.lean): is false: the constructor refuses a segmentation with a content (C63), but both can be assigned.
- `C125_refuted_none` (Verif/Attr/RefSetters.lean): is false of None: the property is None as if it were not there, but the attribute is still there, and asking for references raises TypeError.

## C126 xigt query answers for each file as if it were alone

xigt query prints for the files, in order, what it prints for each alone, up to and with the first that fails, and ends with the exception of that one or regularly; of the one that fails it prints what was found before, but no results; without files, without an action, or with a description before any action it ends with a message about its usage.

- `C126_refuted` (Verif/Scripts/QueryMain.lean): is false without actions: instead of a message about the usage there is an AttributeError, whatever the files.

## C127 Every object can be shown

repr() of every object gives a text with its ID and its value or the number of its contents, and xigt query --find can print every match.

- `C127_refuted` (Verif/Scripts/QueryShown.lean): is false: an item on a circle of references cannot be shown, however deep recursion may go.
- `C127_refuted_query` (Verif/Scripts/QueryShown.lean): fails of `xigt query --find`: if the value of one of the items found cannot be computed, an exception ends the query, so that this one and those after it are not shown (for those before see C126_begun).

## C128 Reading a path loses nothing but white space

The tokens of an XigtPath, in order, are all of the path but white space: every character outside white space is in a token, and quoted strings stay whole.

- `C128_refuted` (Verif/Path/Tokens.lean): is false with exclamation marks: a path with one too many finds the same as the path without.

## C129 The tier, IGT and corpus of an object are those it is in

After any sequence of edits item.tier, item.igt, item.corpus, tier.igt, tier.corpus and igt.corpus are the objects in which the object is contained, directly or through others, and None if it is contained in none.

- `C129_refuted` (Verif/Container/Getters.lean): is false of objects that were removed: they still have the tier, the IGT and the corpus they were in.
- `C129_refuted_assigned` (Verif/Container/Getters.lean): is false of an item assigned to a place, which belongs to the tier without knowing it.

## C130 From JSON to XML and back

A JSON text as it is written is the same text after it is read, written as XML, read and written as JSON.

- `C130_refuted` (Verif/Xml/ConvertBack.lean): refuted: XML reads a carriage return as a line feed (C40), so the JSON text differs

## C131 Objects in a container can be renamed

After x.id = new, with a valid ID that no other object of the container of x has, x is found under the new ID and no longer under the old one, the others are found as before, and x can be removed; an invalid ID raises ValueError and changes nothing.

- `C131_refuted` (Verif/Container/Rename.lean): is false without `refresh_index()`: the object is found under its old ID only, and cannot be removed.
- `C131_refuted_taken` (Verif/Container/Rename.lean): is false also of IDs that are taken: nothing keeps two objects of a container from having the same ID, and if one of them is then removed, the other is not found any more.

## C132 Equal IGTs answer alike

If two IGTs are equal (==), items at the same places have the same value or raise the same exception, the referents and referrers of every ID are the same, and so are all attributes asked for with get_attribute.

- `C132_refuted` (Verif/Igt/Same.lean): fails for attributes asked for by prefix: equality ignores the prefixes.

## C133 What items say survives saving

After a corpus is saved as XML or JSON and loaded again, the items at the same places have the same values, and the referents and referrers of every ID are the same.

- `C133_refuted_xml` (Verif/Igt/Keep.lean): is false in XML of an empty text: it is lost, and then the item has the value of what it refers to.
- `C133_refuted_json` (Verif/Igt/Keep.lean): is false in JSON too of an empty text.

## C134 Sorting does not change what items say

After xigt sort, with whatever keys, and after sort_tiers(), every item has the value it had before.

- `C134_refuted` (Verif/Scripts/SortValues.lean): is false of tiers that are referred to by their place: `content="0"` is the first tier, which is another one after sorting.

## C135 What the validator passes has values

If xigt validate reports no error in a corpus, value() raises no exception for any of its items.

- `C135_refuted` (Verif/Scripts/ValidateValues.lean): is false as stated: a reference to an item of a tier without items is not noticed; nothing is reported, not even a warning, but the value of the item cannot be had.

## C136 What the Toolbox importer makes passes the validator

xigt validate finishes with every corpus that the Toolbox importer makes, and reports no error; so it does with the file that is written.

- `C136_refuted` (Verif/Import/ToolboxValid.lean): is false as stated: if a tier has the ID of another followed by a digit, items of both can get the same ID.
- `C136_refuted_keys` (Verif/Import/ToolboxValid.lean): is false as stated with the default options too: keys `7` and `igt7` give the same ID.

## C137 What the ODIN importer makes passes the validator

xigt validate finishes with every corpus that the ODIN importer makes, and reports no error; so it does with the file that is written.

- `C137_refuted` (Verif/Import/OdinValid.lean): is false as stated: blocks with the same ID are all imported.
- `C137_refuted_refs` (Verif/Import/OdinValid.lean): is false as stated of lines that say something under `segmentation`: it becomes a reference that leads nowhere.

## C138 The validator says the same after saving and loading

xigt validate says the same of equal corpora, and of the file that a corpus was saved to as of the corpus: the same report, or the same exception; and the command gives the same answer.

- `C138_refuted_xml` (Verif/Scripts/ValidateSame.lean): is false in XML of an empty text: of the corpus in memory the validator reports a span beyond the end; with the file it fails.
- `C138_refuted_json` (Verif/Scripts/ValidateSame.lean): is false in JSON too of an empty text.

## C139 Sorting does not change what the validator finds

If xigt validate finishes with a corpus, it finishes with the corpus that xigt sort makes of it, whatever the keys are, and at every level finds something in the one exactly if it does in the other; so it does around sort_tiers().

- `C139_refuted` (Verif/Scripts/ValidateSort.lean): is false of tiers that are referred to by their place: `content="0"` is another tier after sorting, and the items of the one that refers to it are not there.

## C140 The extensions of the schema allow what they are about

What is written of a corpus is valid against syntax.rnc (dependencies.rnc) exactly if each tier has no type and is as in xigt.rnc, or is of the type syntax (dependencies) with its two references, its items have the references of the extension, and content, alignment and segmentation are blocked; a document both allow is one xigt.rnc allows.

- `C140_refuted` (Verif/Schema/Extensions.lean): refuted as to "setting refs to empty blocks content/alignment/segmentation" (syntax.rnc:4, dependencies.rnc:4): items in such tiers may still have these references (`LocalItem`, xigt-tier.rnc:32), and neither of those the extension is about.

## C141 Options that are not given have their documented defaults

An importer uses the options that are given, and for the others the documented defaults; no configuration, null, an empty one and the documented one are the same, other options and the order do not matter, and options used again give the same; every configuration whose options are of the right kind and whose tiers have types can be used, and one that cannot leaves all files as they are.

- `C141_refuted` (Verif/Import/Options.lean): not every configuration whose options are all of the right kind can be used: with only a map of markers to tiers, all of whose tiers have a type, there is a KeyError, because the default alignments have tiers the map does not have

## C142 Names do not matter

When the IDs of an IGT are replaced by others, different ones by different ones and in references too, each item has the value it had, each ID has the references it had, renamed, and ancestors() and descendants() give the same tiers and items, step by step.

- `C142_refuted` (Verif/Igt/Renamed.lean): `ancestors()` depends on names: of the tiers `zz`, `ab`, `a`, `q`, each of which refers to the next, it finds two from the first on, because `a` is a character of the ID before; of the same with other names it finds all three.

## C143 Paths find the same in equal corpora

A path finds the same in equal corpora, and in a corpus saved and loaded again: the same results in the same order, the same strings, the same first result, counts, unique results and tallies of the query script, and the same exceptions.

- `C143_refuted_order` (Verif/Path/Same.lean): is false of `@*`, which gives attributes in the order they were given in: corpora that are equal answer differently.
- `C143_refuted_prefix` (Verif/Path/Same.lean): is false of prefixes: which namespaces are declared does not count for `==`.

## C144 JSON documents are read as they say

A JSON document, whoever wrote it, is read as the corpus it describes: every object has the ID, type, attributes, namespaces, text and contents that its members say, prefixes of names are resolved by the declarations around them; the order of members and members of other names do not matter; and it is read exactly if such a corpus can be constructed.

- `C144_refuted_null` (Verif/Json/Reads.lean): is false of `null` for the members that are declared namespaces or lists, which are not read as if they were left out: they cannot be read.
- `C144_refuted_type` (Verif/Json/Reads.lean): is false of the type of a corpus, which `decode` does not pass on.
- `C144_refuted_child` (Verif/Json/Reads.lean): is false of the ID and type of a MetaChild, which `decode_metachild` does not pass on.

## C145 Equal corpora are sorted to equal corpora

The sort script gives equal corpora for equal corpora, whatever keys are given, and raises the same for both; so a corpus that was saved and loaded again is sorted as it would have been before.

- `C145_refuted_prefix` (Verif/Scripts/SortSame.lean): is false of keys with prefixes: which namespaces are declared does not count for `==`, but without the prefix the key is not found and the order stays.
- `C145_refuted_order` (Verif/Scripts/SortSame.lean): is false of the key `@*`, which is the attribute that was given first.

## C147 Sorting changes the order of what a path finds, and nothing else

A path finds in a corpus that was sorted what it found before, but for the order: the same objects at the same places, the same strings, as many results; and it raises something in the one exactly if it does in the other.

- `C147_refuted` (Verif/Scripts/SortPaths.lean): is false of values where tiers are referred to by their place, and of references where IDs are repeated: `igt/tier/item/value()` raises once the tiers are sorted, and `referent("alignment")` is another item.

## C148 A partition has what paths found in its files

A path finds in the files that a partition writes, taken together, what it finds in the files that were partitioned: the same objects in the same objects up to the IGT, and the same strings, as many of each; and it raises something in the one exactly if it does in the other.

- `C148_refuted` (Verif/Scripts/PartitionPaths.lean): does not hold for all paths: the metadata of the corpus gets lost, and so does all that is found by way of it

## C150 Rewriting and sorting keep documents valid

A document that one of the schemata allows is read exactly if no two siblings have the same identifier; and when it is read and written again, with any indentation, or read, sorted by any keys and written, the document that is written is valid against exactly those of the schemata that the first one was valid against.

- `C150_refuted` (Verif/Schema/Kept.lean): is false of documents that no schema allows: text where none is allowed is dropped, so that what is written is valid though what was read is not.

## C151 A partition of valid documents is valid

If every file that is partitioned is valid against a schema, then every file that the partition writes is valid against the same schema and can be read again, whatever the keys are and whichever IGTs of whichever files come together.

- `C151_refuted` (Verif/Schema/Parts.lean): the other way round is false: what is wrong with a corpus itself is gone from the files of the partition, which are valid.

## C152 The command passes its arguments to its script

xigt calls a script exactly if the first argument is its name, perhaps with -- before it; and it passes on all that follows, options too, as it is, but for -- directly after the name.

- `C152_dashes_refuted` (Verif/Scripts/CommandExamples.lean): a file called `-x.xml` can be named after `--` if the script is called directly, but `xigt sort -- -x.xml` loses the `--`

## C153 Scripts receive what their options say

A command line on which options are written in full, in any order, apart, with =, glued to their letter or as repeated letters, around the files or before -- and the files, gives each script the files and, for each option, what is said of it: all values in order for keys and queries, the last value for the others, counts, or the default; sort ends with its usage if tier keys and tier dependencies are both given, import and export do if the input or the output is missing or a format is not known.

- `C153_partition_refuted` (Verif/Scripts/CommandExamples.lean): the help of `xigt partition` says that all arguments may follow one another; but the files must stand with the directory: after an option in between, `infiles` has been taken to be empty already
- `C153_query_refuted` (Verif/Scripts/CommandExamples.lean): files on both sides of an option
- `C153_partition_dashes_refuted` (Verif/Scripts/CommandExamples.lean): files that are called `--`: of the files of a partition, the first that is called so is lost

## C156 Files change only as the command line says

Whatever arguments xigt is called with, and however it ends: query, validate, process, help and wrong command lines change nothing; sort changes at most a file that is an argument, and only if an argument from --in to --in-place is there; import and export change only the output that -o or --output says, import from ODIN also files in it and export to itsdb what is below it; partition only makes a directory that is an argument and was not there, and files in it.

- `C156_refuted` (Verif/Files/CommandProps.lean): refuted: with keys that are paths, a partition changes a file outside of its directory, here its own input

## C159 XML documents are read as they say

Exactly the texts in the grammar of documents are read in which all prefixes are declared, by declarations that are allowed, and no attribute has its name twice by two prefixes; each name is resolved by the innermost declaration around it. Each such document is loaded as the one corpus it says, if identifiers and names in that are valid: with the namespaces declared around each object, attributes but ID and type, text that is not blank, and children with the right names in their order, others being left out.

- `C159_refuted` (Verif/Xml/Reads.lean): metadata after the IGTs is not loaded, though the document says it

## C160 The validator finds in a partition what it found in its files

What the validator reports of the IGTs, tiers and items in the files of a partition is, IGT by IGT, what it reported of them in the files that were partitioned, each of them once, however the IGTs come together; so if it finds no problem in any of those files, it finds none in the files of the partition, also as they are written and read again, and the other way round.

- `C160_refuted` (Verif/Scripts/ValidateParts.lean): is false of information: the new corpora have no IDs
- `C160_refuted_back` (Verif/Scripts/ValidateParts.lean): the other way round is false where an ID is used twice: the IGTs with it may come into different files, in which there is no error

## C162 Queries print the same of saved and sorted corpora, and counts add up over a partition

What xigt query prints, and how it ends, is the same for a corpus and for one that is equal to it or was loaded from its file. If a corpus is sorted, the heading and the table of results are the same, and the lines of the matches are the same in another order. The counts of a path in the files of a partition add up to those in the files that were partitioned.

- `C162_refuted_tally` (Verif/Scripts/QuerySame.lean): is false of tallies: the groups of a sorted corpus are other ones.
- `C162_refuted_unique` (Verif/Scripts/QuerySame.lean): is false of `--unique` and partitions: what is in two files is counted twice; `--count` adds up.

## C163 The input of an exported [incr tsdb()] item is its phrase or its words

By default the i-input of an IGT is the text of the first phrase, or if there is no tier of phrases, the values of all its words, in order and with one blank between them, from which the words can be read if none is empty or has a blank in it. Each IGT gets one row, in order, with the numbers 0, 10, 20 and so on, and equal IGTs have the same input.

- `C163_refuted_odin` (Verif/Export/ItsdbDefault.lean): fails for what is imported from ODIN: there are lines but neither phrases nor words, so the cell is always empty.
- `C163_refuted` (Verif/Export/ItsdbDefault.lean): is false with phrases, of every IGT that has them: the cell is not a text but an Item.
- `C163_refuted_empty` (Verif/Export/ItsdbDefault.lean): is false with an empty tier of phrases: an IndexError, though there are words.

## C164 Exports of sorted and partitioned corpora have the same examples

A corpus whose IGTs are sorted can be exported exactly if the corpus can. Its LaTeX document has the same block for each IGT, in the new order; its rows for [incr tsdb()] have the same cells for each IGT, numbered anew in the new order. If tiers are sorted, by keys or by dependencies, and those that are shown keep their order, the block of the IGT is the same. The files of a partition can be exported exactly if those that were partitioned can, and the documents have the same blocks.

- `C164_refuted` (Verif/Export/Sorted.lean): is false of tiers that are shown and change places: here the glosses come before the words once the tiers are sorted by their IDs, and the sorted corpus cannot be exported any more.
- `C164_refuted_numbers` (Verif/Export/Sorted.lean): is false of the numbers of rows: an IGT has another `i-id` once the corpus is sorted.

## C165 Exporting to [incr tsdb()] makes one profile, of all rows, or none

With a configuration as it should be, or without one, xigt export -f itsdb makes one profile, at the output, with the Relations file that the configuration names, or if it names none, that of LOGON if there is one, and with the rows of the IGTs in order, numbered as the configuration says; if an IGT cannot be read or exported, the library is given the rows before it and then the exception. Without a Relations file nothing is written at all, and if the configuration names a file the environment makes no difference. A profile was made if the status is 0.

- `C165_refuted` (Verif/Files/Itsdb.lean): does not hold of the status: without a Relations file the program ends with status 0, but nothing was exported of a corpus that has two IGTs.

## C167 One Toolbox record does not stop another from being imported

A Toolbox record with a key is imported exactly if its key makes an identifier, Toolbox could align its fields, no tier is made twice, all tiers have descriptions and identifiers, and each line that is aligned with another has a cell for each token of it and tokens only where there is one (and something to find them in, if they are words or morphemes). Files after each other give their IGTs after each other. If all records with a key fit, there is one IGT for each; one that does not fit is left out, and the others are imported as without it.

- `C167_refuted_twice` (Verif/Import/ToolboxTotal.lean): refuted: that a record that cannot be imported is left out is not so of every such record: with a marker twice in one record nothing of the file is imported, though the other record alone is.
- `C167_refuted_short` (Verif/Import/ToolboxTotal.lean): refuted: nor with a line of morphemes that has fewer cells than the line of words has words.

## C168 Every Toolbox record is imported or named in the log

If importing a Toolbox file finishes, every record with a key is an IGT, or there is an error in the log with the identifier it would have had, both in the order of the records, and never both; with the verbosity of xigt import all these errors are shown, so IGTs and errors are as many as records with a key. There is no error exactly if all these records fit. If importing stops, the log is that of the records before the one that stops it, and names this one too. The log changes nothing.

- `C168_refuted` (Verif/Import/ToolboxLog.lean): refuted: a record that ends the import is not named in the log

## C169 An Igt warns that an item already exists exactly if another item has its ID

When an Igt is made, or its indices are refreshed, there is a warning that an item already exists for each item that differs from the last one before it with the same ID. So a new Igt warns of an ID exactly if two of its items with it are different; if the items have different IDs there is no warning, and if there was none there is none when it is refreshed again. There is a warning whenever two items have the same ID, and only then. Warnings change nothing.

- `C169_refuted_none` (Verif/Igt/Warn.lean): refuted: items without IDs are warned of, though no ID is used twice
- `C169_refuted_equal` (Verif/Igt/Warn.lean): refuted: of items with the same ID that are equal otherwise too there is no warning
- `C169_refuted_removed` (Verif/Igt/Warn.lean): refuted: an item that was taken out of the igt is still warned of when another gets its ID

## C170 What is imported from Toolbox is found by its name, and its references lead there and back

In an IGT imported from Toolbox every tier and every item has an ID, get_any() finds it by this ID and get_item() finds every item; a tier either has no references, and neither do its items, or it has one, which leads to a tier of the IGT, and those of its items lead to items of this tier; what is referred to has among its referrers what refers to it. No two items have the same ID and nothing is warned of. It is the same in what is read when the corpus was written to a file.

- `C170_refuted` (Verif/Import/ToolboxNames.lean): is false as stated: if a tier has the ID of another followed by a digit, an item of one is not found, but one of the other, and there is a warning.

## C171 A line of an ODIN block is found by the ID of the block and its number

In the corpus imported from ODIN, and in what is read when it was written to a file, the IGT with the ID of a block has a tier r, and this has for each line of the block an item r1, r2, ...; get_item() finds it too, its value is the text of the line, cleaned, and its attributes are what else the block says of the line. There are no other items, and nothing is warned of.

- `C171_refuted` (Verif/Import/OdinNames.lean): is false as stated of blocks with the same ID: only the lines of the first are found.

## C172 The Toolbox importer passes on what is warned of in a record, with the identifier of the record

Every warning issued while a Toolbox record is imported, whether it becomes an IGT or is left out, is passed on, with the identifier of the record, in the order of the records. Catching the warnings and passing them on changes nothing.

- `C172_refuted_second` (Verif/Import/ToolboxWarn.lean): is false as stated: a second warning of the same record is lost.
- `C172_refuted_stopped` (Verif/Import/ToolboxWarn.lean): is false as stated: the warnings of the record that stops the import are lost.
- `C172_refuted_unnamed` (Verif/Import/ToolboxWarn.lean): is false as stated: a warning of the Igt does not tell which IGT it is.

## C173 The deprecated text of a Metadata is its metas, and a string is put in an untyped Meta

Metadata.text and Metadata.metas are the same: a Metadata made with a list as its text, or to whose text a list is assigned, contains this list, if these are Metas no two of which have the same ID, and otherwise there is an error; what it contained before is replaced, and nothing else of it changes. Assigning to text what it is changes nothing. A string is put in an untyped Meta, whose text it is. Giving both text and metas is an error. Each use of text gives a warning, and a string another.

- `C173_refuted_string` (Verif/Tree/MetadataText.lean): is false as stated: a string that is assigned is not put in a Meta: there is an error, and what the Metadata contained is lost.
- `C173_refuted_empty` (Verif/Tree/MetadataText.lean): is false as stated: an empty string that is assigned empties the Metadata, without an error.

## C174 What is imported from Toolbox is exported to [incr tsdb()] with its words

If records were imported from Toolbox, exporting them to [incr tsdb()] with the default cells succeeds and gives a row for each IGT, numbered 0, 10, 20, ...; its i-input is a string, the tokens of the line of words of the record joined by blanks, and the empty string if the record has no line of words. It is the same if the corpus was written to a file and read again before.

- `C174_refuted` (Verif/Export/ToolboxItsdb.lean): is false as stated: if a tier of phrases is made, which is so by default, the cell of a record with words is not a string.

## C175 The IGTs of a corpus are what was assigned, in every mode

Assigning a list of IGTs to the igts of a corpus succeeds exactly if no ID is used twice in it, in every mode; then reading igts gives this list, now and later. Otherwise there is an error. Neither the mode nor the source of the corpus changes.

- `C175_refuted` (Verif/Corpus/Assign.lean): is false as stated, of every corpus in another mode that was not read: `igts` is not what was assigned but what the source has; read again, it is what was assigned and then, in incremental mode, what the source has.

## C176 Adding to a container and removing from it undo each other

After any history, if an object was appended to a container or inserted anywhere, removing it succeeds and every container is as before: the same objects in the same order, and the same answer to every subscription. Likewise if an object is removed and inserted again at its position, and if another object is assigned to a position and then the one that was there. A container that is cleared and extended by the objects it had is as before.

- `C176_refuted` (Verif/Container/Undo.lean): as stated it is false. An object without an ID that another before it equals is not what is removed: the other is, so that inserting the object again has it twice.

## C24 Cached references are exact after refresh_indices()

Right after construction or refresh_indices(), igt.referents(id) equals the freshly computed referents, and igt.referrers(id)[attr] contains b exactly when a is among b's referents; get_item finds each current item.

- `C24_refuted_shared_id` (Verif/Igt/RefProps.lean): fails if an item has the ID of a tier: the cache is that of the item, the fresh computation that of the tier.
- `C24_refuted_unknown_id` (Verif/Igt/RefProps.lean): fails for an ID of no object: the cache has no entry, the fresh computation raises.
- `C24_refuted_get_item` (Verif/Igt/RefProps.lean): , `get_item` part, fails if two tiers have an item with the same ID: only the last is found.

## C25 After removing an item and refreshing, it is no longer found

get_item(id) after refresh_indices() returns only items currently in the igt.

- `C25_refuted` (Verif/Igt/RefProps.lean): fails: an item that was removed before `refresh_indices()` is still found afterwards.

## C26 ancestors() terminates

query.ancestors yields finitely many steps for every igt, including ones whose tiers refer to each other in a cycle.

- `C26_refuted` (Verif/Igt/AncProps.lean): is false: on this igt `ancestors` of tier `s1` never ends.

## C29 descendants() is sound and complete for tiers

Every step of descendants is a real reference between the two tiers with exactly the referring items, and (follow="all") every tier that refers directly or indirectly to the start tier is reached.

- `C29_refuted` (Verif/Igt/DescProps.lean): fails for a referring tier without ID: it is not reached.

## C30 sort_tiers puts referred tiers first

When tier references exist and are not circular, sort_tiers permutes the tiers so that each tier stands after the tier its highest-priority reference attribute points to, and sorting again changes nothing.

- `C30_refuted` (Verif/Igt/SortProps.lean): fails for tiers without ID: the first refers to `w`, is sorted by the reference of the second, and stands before `w`.

## C31 sort_tiers terminates

sort_tiers terminates on every igt.

- `C31_refuted` (Verif/Igt/SortProps.lean): is false: two tiers that refer to each other.

## C33 Inheritance also works for namespaced attributes

get_attribute(key, inherit=True, namespace=ns) finds the namespaced attribute on an ancestor, like get_attribute("prefix:key", inherit=True) does.

- `C33_refuted` (Verif/Attr/Props.lean): is false: the prefixed key is inherited, the same key with `namespace=` is not.

## C36 All loading modes give the same IGTs

The first complete iteration over a corpus built from the same IGT source yields the same sequence of IGTs in full, incremental and transient mode.

- `C36_refuted` (Verif/Corpus/Props.lean): is false if an ID is repeated: full mode fails at construction, incremental mode during the iteration, transient mode yields both.
- `C36_refuted_absent` (Verif/Corpus/Props.lean): is false without a source: full mode has no IGTs, incremental mode raises TypeError.

## C37 Incremental keeps, transient forgets

For any history of (complete or abandoned) iterations: in incremental mode the IGTs held are exactly those seen so far and later complete iterations after exhaustion yield all of them again; in transient mode nothing is held and nothing is yielded after exhaustion; no IGT is ever pulled from the source twice.

- `C37_refuted` (Verif/Corpus/Props.lean): is false for a corpus over a list (as decoded from JSON): an iteration after an abandoned one begins anew, which raises in incremental mode as the first IGT is held already; in transient mode it yields the first IGT twice.

## C38 JSON round trip

Decoding the JSON encoding of a corpus gives an equal corpus.

- `C38_refuted` (Verif/Json/Props.lean): is false: the type of a corpus is lost
- `C38_refuted_text` (Verif/Json/Props.lean): is false also of the text of items: an empty text is lost
- `C38_refuted_raises` (Verif/Json/Props.lean): is false also of attribute names: with a brace at the front and no other, encoding fails

## C39 JSON keeps namespaced attributes

An attribute in a namespace survives a JSON round trip: it is still found under its namespace.

- `C39_refuted` (Verif/Json/Props.lean): is false: the attribute is then called `p:k` and not found in the namespace

## C40 XML round trip

Loading the XML serialisation of a corpus gives an equal corpus.

- `C40_refuted_known` (Verif/Xml/Known.lean): is false also of attributes in some namespaces that are not declared, that of Dublin Core and others: they are written with a prefix (xigtxml.py:10-20, 378-383) that is not declared in the file either, so the file cannot be read
- `C40_refuted` (Verif/Xml/StreamProps.lean): is false: the type of a corpus becomes an attribute
- `C40_refuted_text` (Verif/Xml/StreamProps.lean): is false also of the text of items: an empty text is lost
- `C40_refuted_ns` (Verif/Xml/StreamProps.lean): is false also of tiers in a namespace: they are lost altogether
- `C40_refuted_cr` (Verif/Xml/StreamProps.lean): is false also of line ends in text
- `C40_refuted_key` (Verif/Xml/StreamProps.lean): is false also of attributes in namespaces that are not declared: writing fails

## C41 Indentation does not change the data

The corpus read back does not depend on the indent argument (any width, or None) used when writing.

- `C41_refuted` (Verif/Xml/StreamProps.lean): is false: a text of a control character is no XML without indentation, but is replaced with it

## C42 Streaming does not change the result

The loaded corpus does not depend on how the parser chunks its input, nor on mode, for documents in the layout the writer produces (metadata before IGTs).

- `C42_refuted` (Verif/Xml/StreamProps.lean): is false: what is loaded from a document the codec wrote depends on how far the parser has read (all IGTs are lost, or an exception is raised)
- `C42_refuted_igt` (Verif/Xml/StreamProps.lean): and C42 are false also of MetaChildren called `igt`

## C44 Path steps compose

findall(x, "A/B") lists, for each result y of findall(x, "A") in order, the results of findall(y, "B"), for steps of every axis.

- `C44_refuted` (Verif/Path/Examples.lean): does not hold for `A` of the form `(...)`: `(igt|igt)/@id` finds what `(igt|igt)` finds

## C45 The descendant axis is complete and in document order

"//name" yields every descendant-or-self element with that name exactly once in document order (metadata before contents).

- `C45_refuted` (Verif/Path/Examples.lean): does not hold for names with prefix: elements in other namespaces are found ...
- `C45_corpus_refuted` (Verif/Path/Examples.lean): ... and the corpus is not found by its name

## C46 Predicates filter

step[p="v"] keeps, in order, exactly the results for which some result of p equals v; step[p!="v"] those for which none does; step[p] those for which p has a result.

- `C46_refuted` (Verif/Path/Examples.lean): does not hold for `A[P]`: `igt[@id]` raises an exception although there is an igt with an ID
- `C46_nested_refuted` (Verif/Path/Examples.lean): ... nor for predicates within predicates

## C47 Alternatives concatenate

"(A|B)" yields for each context object the results of A followed by those of B, for every context, whatever the data.

- `C47_refuted` (Verif/Path/Examples.lean): does not hold for alternatives within alternatives: it depends on the data whether the path works at all

## C48 Names in paths are taken literally

A path built from element and attribute names selects by exactly these names.

- `C48_refuted` (Verif/Path/Examples.lean): does not hold for names that begin with one of the words of the tokenizer ...
- `C48_dot_refuted` (Verif/Path/Examples.lean): ... nor for names with a `.`, where something else is found

## C49 Partitioning loses and duplicates nothing

After xigt partition every input IGT is in exactly one output file, the one named after its key.

- `C49_refuted` (Verif/Scripts/PartitionProps.lean): does not hold for all keys: `a:b` and `a-b` have the same file, the second overwrites the first
- `C49_refuted_ids` (Verif/Scripts/PartitionProps.lean): IGTs with the same ID in different files cannot be written to one file

## C50 Natural sort keys are always comparable

xigt sort orders objects by their key strings with embedded numerals compared numerically, never failing on mixed text and numerals.

- `C50_refuted` (Verif/Scripts/SortProps.lean): is false for several keys: types `b` and `b1` with IDs `i1` and `i` cannot be sorted

## C51 Query counts add up

The tally counts of xigt query sum to the number of matches of the query, each group once; unique counts the distinct matches.

- `C51_refuted` (Verif/Scripts/QueryProps.lean): is false for matches and groups that are objects: the script fails

## C53 The validator reports overlapping spans

An alignment expression that selects a character of an item twice is reported.

- `C53_refuted` (Verif/Scripts/ValidateExamples.lean): fails: the second character of `w1` is selected twice, but nothing is reported.

## C54 The validator reports missing referents and duplicate IDs

A tier reference to an unknown tier, an item reference to an unknown item of the referred tier, an item reference attribute missing on the tier, and a repeated igt or item ID each yield an ERROR record on the object concerned, and only those do.

- `C54_refuted` (Verif/Scripts/ValidateExamples.lean): fails: a number is taken as a position, so a reference to an unknown tier is not reported.
- `C54_refuted_empty` (Verif/Scripts/ValidateExamples.lean): fails: references into an empty tier are not reported.

## C56 Imported morpheme spans lie in their word

The span computed for a morpheme satisfies 0 <= begin <= end <= length of the word.

- `C56_refuted` (Verif/Import/ToolboxSpans.lean): is false: a sole morpheme longer than the word, and a morpheme in the middle that does not fit behind the matched part of the word (`3:1`).

## C57 Respacing keeps byte columns

After decoding a Toolbox line each token starts at the column equal to its byte offset in the file, whatever multi-byte characters precede it.

- `C57_refuted` (Verif/Import/RespaceProps.lean): fails for other encodings: in UTF-16 the two bytes of the dagger U+2020 are taken for white space, and `a†b` is spaced as two tokens.

## C58 The ODIN importer produces only XML characters and keeps valid ones

Cleaned text has the same length, contains only characters legal in XML 1.0, and legal characters are unchanged.

- `C58_refuted` (Verif/Import/OdinProps.lean): is false outside the BMP: every such character is legal and is replaced.

## C60 The LaTeX grid shows every item once

Grouping aligned tiers into columns keeps every item of every tier exactly once, in order, and gives every column one row per tier.

- `C60_refuted` (Verif/Export/LatexExamples.lean): is false: an item with neither alignment nor segmentation is an exception, there is no grid.
- `C60_refuted_order` (Verif/Export/LatexExamples.lean): is false: an item that had to wait comes before items that were placed earlier.
- `C60_refuted_rows` (Verif/Export/LatexExamples.lean): is false: the columns of items that wait to the end have a row too many.
- `C60_refuted_range` (Verif/Export/LatexExamples.lean): is false of items that refer to items in another order: there is no grid.
- `C60_refuted_empty` (Verif/Export/LatexExamples.lean): is false of an empty first tier: the words of the second are lost in an exception.

## C61 [incr tsdb()] rows are numbered distinctly and use their own cell mapper

Exported rows have distinct increasing i-ids and each configured cell is computed by its own expression.

- `C61_refuted` (Verif/Export/ItsdbProps.lean): is false: with two cells both have the value of the second expression.
- `C61_refuted_skip` (Verif/Export/ItsdbProps.lean): is false: with a skip of 0 all rows have the same number.

## C62 select() is an order-preserving filter

select(**criteria) yields, in order, exactly the contained objects all of whose named members equal the given values, a namespace prefix being replaced by its URI.

- `C62_refuted` (Verif/Attr/Props.lean): is false for the metadata list of an object: `igt.metadata.select(namespace=...)` raises AttributeError, as this list has no namespace map.

## C64 referents() and referrers() raise XigtLookupError exactly for unknown IDs

referents(igt, i) and referrers(igt, i) succeed for every ID of a tier or (indexed) item of the igt, and raise XigtLookupError, and no other error, for every other string.

- `C64_refuted` (Verif/Igt/RefProps.lean): fails for a numeric string: `referrers` raises IndexError, and for a position that exists it treats the string as the ID of the tier there.

## C65 ancestors() stops only where it must

If query.ancestors stops without an exception, the last tier reached has no reference attribute or was met before.

- `C65_refuted` (Verif/Igt/AncProps.lean): is false: `ancestors` of `s1` ends at tier `a`, which was never met before, although `a` refers on to `c`; the reason is that `a` is a character of the ID `ab`.

## C66 descendants() lists every indirectly referring item

With follow="all", every item that refers, directly or through items of other tiers, to a start item is listed in some step.

- `C66_refuted` (Verif/Igt/DescProps.lean): fails: item `c2` refers to `b2`, which refers to the start item `a1` by alignment, but tier `b` is reached twice and only the first time (by segmentation, with `b1`) is it followed.

## C67 Namespace declarations survive JSON

After decoding the JSON encoding of a corpus, every object has the namespace map it had before.

- `C67_refuted` (Verif/Json/Props.lean): is false: a namespace that an igt declares again, besides another one, is no longer declared there

## C71 Morphemes that spell their word select themselves

If a word in lower case without hyphens is spelled by its morphemes without their boundary marks, the reference computed for each morpheme evaluates to exactly that morpheme without its marks (a sole morpheme having no marks).

- `C71_hyphens_refuted` (Verif/Import/ToolboxSpans.lean): readme.txt: hyphens of the orthography are skipped ("finding `lantern` in jack-o'-lantern first builds jack-o'-"). It is not so: the last morpheme gets the hyphen too, and the one before is not found; its span is said to be the remainder of the word but is `-o'-lan`.

## C73 Record keys become valid IGT IDs

The key of every Toolbox record is turned into a valid ID, different keys into different IDs.

- `C73_refuted` (Verif/Import/ToolboxIgt.lean): is false: with a key beginning with a letter outside ASCII no record is imported; the ValueError ends the whole import.

## C76 What the ODIN importer writes can be read

Reading the file the ODIN importer writes gives the corpus it imported.

- `C76_refuted` (Verif/Import/OdinXml.lean): is false: only the contents of lines are cleaned. With a control character in the name of the language the importer writes a file that cannot be read.
- `C76_refuted_header` (Verif/Import/OdinXml.lean): is false also of the header (if it is kept).
- `C76_refuted_empty` (Verif/Import/OdinXml.lean): is false also of lines without content: their text is gone after reading.
- `C76_refuted_language` (Verif/Import/OdinXml.lean): is false also when the language is not known: its empty name is gone after reading.

## C77 TeX prints what was escaped

TeX, reading the escaped form of a string, prints exactly the characters of the string.

- `C77_refuted` (Verif/Export/LatexEscape.lean): is false: a letter after one of these characters becomes part of the name of the control word, which is then unknown, whatever follows.
- `C77_refuted_space` (Verif/Export/LatexEscape.lean): is false also for spaces, which are skipped.

## C78 Items stand in the columns of what they refer to

In the LaTeX grid every item stands in the same column as all items of the previous tier from the first to the last it refers to.

- `C78_refuted` (Verif/Export/LatexExamples.lean): is false of items in another order: the gloss of the first word is in the column of the last.

## C79 The exported LaTeX lines show the grid

The LaTeX block of an IGT has one line for each tier of the wanted types, made of as many groups as the grid has columns, the groups holding the escaped texts of the items of the tier in their columns, and one line for each tier of translations; an IGT with fewer than two tiers of the wanted types becomes a comment.

- `C79_refuted` (Verif/Export/LatexExamples.lean): is false of tiers with an item that is not aligned: there is no block but an exception.
- `C79_refuted_empty` (Verif/Export/LatexExamples.lean): is false of items without content: they are shown as a pair of braces, which is not their (empty) text.

## C80 Assigning contents replaces them

After assigning a list or container to igts, tiers, items, metas, children or metadata, the container holds exactly the assigned objects in their order, finds them by ID and is their parent; if an object is of the wrong class or its ID is taken the call raises and the container holds the objects before it.

- `C80_refuted_self` (Verif/Container/Setters.lean): refuted: a container assigned to itself (`x.metadata = x.metadata`, `tier.items = tier`) loses everything, without an exception.
- `C80_refuted_iadd` (Verif/Container/Setters.lean): refuted: `x.metadata += l` loses what was there and what was added, without an exception.

## C82 List methods that containers inherit leave the index alone

After pop, reverse, sort, += and *= on a container, lookup by ID agrees with the contents; refresh_index makes it agree whenever no two contained objects share an ID.

- `C82_refuted_pop` (Verif/Container/Setters.lean): refuted: an object with an ID that was popped can still be looked up by it.
- `C82_refuted_iadd` (Verif/Container/Setters.lean): refuted: an object added with `+=` to the container itself cannot be looked up by its ID.

## C83 Deprecated resolution agrees with the current one

resolve_alignment_expression and get_alignment_expression_spans, which are deprecated, do on every alignment expression what resolve and spans do: the former gives the same text or raises the same exception, the latter lists IDs, selections with their numbers and delimiters in order.

- `C83_refuted_missing` (Verif/Ref/Deprecated.lean): refuted: for an item that does not exist the deprecated function raises NameError (`warnings` is not imported), where `resolve` raises XigtStructureError.
- `C83_refuted_none` (Verif/Ref/Deprecated.lean): refuted: for an item without a value the deprecated function raises TypeError, where `resolve` gives the empty string.
- `C83_refuted_delim` (Verif/Ref/Deprecated.lean): refuted: a comma and a space between IDs is a space for the deprecated function and nothing for `resolve`.

## C84 Descriptions of query results show what they should

The description of a match printed by xigt query is the description given (or the default one) with query, subquery and match filled in for their fields and everything else unchanged.

- `C84_refuted_query` (Verif/Scripts/QueryPrintProps.lean): refuted: braces in the query are taken for a field when the match is filled in; the action fails on its first match.
- `C84_refuted_braces` (Verif/Scripts/QueryPrintProps.lean): refuted: braces written twice in a description, as format strings have them, are taken for a field.
- `C84_refuted_nested` (Verif/Scripts/QueryPrintProps.lean): refuted: a field in the specification of the match is looked up too early (and if it is the match itself, that fails).

## C88 Messages of the validator name what is wrong

The text of each message is its sentence with the modal verb of its level, the name of the element, its scope, and the IDs and attributes concerned.

- `C88_refuted` (Verif/Scripts/ValidatePrint.lean): refuted: a tier ID with braces (as it may be in a file) is taken for a field when an item is missing from the tier; validation stops with KeyError or the message names another ID.

## C89 Every object can be encoded by itself

The element that encode_igt, encode_tier, encode_item, encode_metadata, encode_meta or encode_metachild makes of an object anywhere in a corpus declares all namespaces it needs, and is decoded to an equal object, with every indentation.

- `C89_refuted` (Verif/Xml/Fragments.lean): refuted: an item with the empty text is decoded to one without text (xigtxml.py:287-297)

## C90 The text of an XML document can be read back, character by character

Reading the characters that dumps (or the encoder of an object) writes, with a reader that sees one character at a time, gives an equal corpus (object): no text, attribute value or name of an object is taken for markup or changed by escaping.

- `C90_refuted` (Verif/Xml/TextProps.lean): refuted: names of attributes are written without a check (xigtxml.py:373-384). An attribute called `a="1" b` is written without an error, and the document is read without an error, as two attributes

## C93 What the Toolbox importer writes can be read

The file written for the imported IGTs can be read, with every indentation, and the corpus read is equal to the one imported.

- `C93_refuted` (Verif/Import/ToolboxXml.lean): refuted: two records with the same key (or with `7` and `igt7`) are both written, and the file cannot be read.
- `C93_refuted_empty` (Verif/Import/ToolboxXml.lean): refuted: an item without text is made for a line without words; its empty text is gone after reading.
- `C93_refuted_chars` (Verif/Import/ToolboxXml.lean): refuted: characters that XML does not have are written, and the file cannot be read.

## C97 referent() and referrer() follow references

The step referent() finds, for each of the given (or allowed) reference attributes in ascending order, the tiers or items with the IDs mentioned in it; referrer() finds the objects of the same level that mention the object in it, in the order of the document; text() and value() give text and value.

- `C97_refuted` (Verif/Path/Refs.lean): refuted: of several reference attributes only the first counts, as the comma and what follows are taken for a name.

## C98 What is written is valid

Every corpus is written, with every indentation, as a document that schema/xigt-structure.rnc allows.

- `C98_refuted` (Verif/Schema/Examples.lean): refuted: a corpus with an IGT without identifier is written as a document that xigt-structure.rnc does not allow, with whatever indentation.
- `C98_refuted_type` (Verif/Schema/Examples.lean): refuted also by a tier without a type
- `C98_refuted_id` (Verif/Schema/Examples.lean): refuted also by an identifier that only begins like one
- `C98_refuted_refs` (Verif/Schema/Examples.lean): refuted also by a tier with a segmentation and a content
