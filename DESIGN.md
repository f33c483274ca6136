# Formal model of Capitains/MyCapytain in Lean 4

## What this is

`/verif/lean` is a Lake project. It holds a model of the semantic core of MyCapytain written as total,
computable Lean functions that follow the Python branch by branch, independent specifications, and theorems
relating the two for all inputs. `properties.jsonl` lists the properties in English; `MANIFEST.json` maps each
property to the theorems that state it.

Layout (all under `lean/Verif/`):

* `Py/`     Python built-ins used by the code (str.split, str.join, str.find, dict, slices, int formatting).
* `Model/`  the model: one file per source module, every definition cites the lines it models.
* `Spec/`   small specifications, written without the model's helpers.
* `Lemmas/` helper lemmas (no property lives there).
* `Props/`  the property theorems, each with a concrete `example` that meets its hypotheses.
* `Tests/`  replicas of assertions of the repository's own unit tests, evaluated on the model. These are
  tests, not proofs; they tie the model to behaviour the maintainers pinned down. Besides them, the model of
  local texts was evaluated on the whole of `sample.xml`, `seneca.xml`, `xml_id.xml` and
  `phi1294.phi002.perseus-lat2.xml`, and the model of inventories on `getCapabilities.xml`, all from
  `/repo/tests/testing_data`; every assertion of `commonTests.py` and of `test_cts.py` that was replayed agreed.
  `text_or_xpath.xml` uses an XPath (`*[self::…]`) outside the fragment that is modelled, so it was not replayed.

## Trusted base

* Lean 4.33.0's kernel. No axiom beyond `propext`, `Classical.choice`, `Quot.sound`. No `sorry`, no
  `native_decide`, no `bv_decide`. `AXIOMS.md` lists, for every property theorem, the axioms it depends on.
* That the model transcribes the Python. This is by reading; nothing in the sandbox runs the Python.
* The meaning given in `Py/` to CPython's built-ins, and in the model to lxml, rdflib and `re`.
  Each such assumption is listed in the section "Modelling decisions".

## Modelling decisions

* Python `str` is `List Char` (`Str`), code point by code point.
* Exceptions are values: `Except PyErr a`, one constructor per exception class that the code raises.
* Regular expressions are hand-written matchers, each cited against its pattern. Where a pattern uses
  `\w` (Unicode) the predicate is a parameter.
* Mutable objects: either a pure state record with one function per method (URN, proxies), or a heap from
  object identities to records (collections, citations), with operations as heap transformers.
* rdflib graphs are duplicate-free lists of triples. Where the library's iteration order matters the theorem
  is stated for every order.
* XML: an element is a tag, attributes, leading text, children and a tail. XPath is modelled for the fragment that
  CapiTainS refsDecl use: child and descendant steps with a name test and attribute tests.
* Network and file system are functions or lists given from outside (a server is a function from requests to replies).

## Not modelled

XSLT and other output formats of lxml, logging, warnings text, pickling internals (only the re-feeding of
the tuple and the restoring of `__dict__`, for references), XML parsing, JSON-LD expansion by pyld, HTTP itself, `requests`, parsing of `Link` headers (what a link's address says is modelled), glob/file access, Python's object identity outside the heaps above, recursion limits and memory.

## Plan per property

For each property: what is modelled, and the proof shape. "Refuted part" marks places where reading the code
shows that the natural statement is false; there a witness theorem is proved beside the largest true statement.

| Id | Model | Proof |
|----|-------|-------|
| C01 | `Model/Reference` constructor on strings | case analysis on the split; split/join lemmas |
| C02 | same | classification by counting '-' |
| C03 | passage ids | split/join by induction. Refuted part: depth when the subreference holds '.' |
| C04 | word references, SUBREFERENCE regex | takeWhile/dropWhile; decimal round trip |
| C05 | parent | induction on components |
| C06 | parent of ranges | case analysis |
| C07 | highest, depth | case analysis |
| C08 | three constructors | equality of records |
| C09 | reference sets | induction on the list |
| C10-C12 | `Model/Urn` parse | split/join lemmas |
| C13 | URN object state with cached text | invariant by induction over operation list, refinement to a record without cache |
| C14, C15 | upTo | prefix lemmas, case analysis. Refuted part for URNs with surplus parts |
| C16 | len, <, >, == | arithmetic |
| C17 | rebuild and reparse | split/join |
| C18, C19 | `Model/Citation` chains | induction on the chain |
| C20, C21 | refsDecl numbering and splitting | induction on strings. Refuted part: characters outside the splitter's class |
| C22 | fill on rendered step patterns | induction on steps, regex matcher lemmas |
| C23 | `Model/CitationTree` | structural induction on rose trees |
| C24 | citation heap | invariant over assembly operations |
| C25 | DTS ingest/export on JSON values | structural induction |
| C26 | normalizeXpath | induction on steps |
| C27, C28 | `Model/Xml`, `Model/Passage` passageLoop | induction on the path. Refuted part: reversed ranges; value equality of objectify leaves |
| C29-C31 | getValidReff | induction on levels |
| C32-C34 | siblingsId | arithmetic on positions. Refuted part: range siblings of simple passages |
| C35 | text extraction | structural induction |
| C36 | nested_set over listed references | induction on the list |
| C37, C38, C42 | collection trees | structural induction |
| C39, C40 | collection heap | invariant over operations. Refuted part: del wipes the container's own metadata |
| C41 | update | induction on members |
| C43 | dispatcher | induction on the filters |
| C44 | dispatch loop | invariant over the sequence |
| C45 | filters | list membership |
| C46 | pagination | integer arithmetic; list slices. Refuted part: empty list |
| C47 | edition choice | Refuted part: prefix without delimiter |
| C48-C50 | `Model/Metadata` over triple lists | invariant over histories |
| C51 | export dispatch | induction on the MRO |
| C52 | graphiter | well-founded recursion on unvisited nodes; reachability |
| C53 | expand_namespace | Refuted part: occurrences other than the prefix |
| C54-C56 | utilities | induction on strings and paths |
| C57, C58 | request parameters | list lemmas |
| C59, C60 | page crawling | induction on the chain; state machine invariant. Refuted part: children guarded by the parents' flag |
| C61 | page links | Refuted part: page as first query parameter |
| C62 | `Model/RemotePassage`: passage state | induction on the history of readings |
| C63 | `Model/RefsDecl` attribute | induction on segments |
| C64 | `Model/Siblings` where a passage carries the object it reads references from | Refuted: siblings of a next passage always raise |
| C65 | children, first, last | from the listing theorems |
| C66 | `Model/Export` | Refuted: passages keep references that the export cannot split |
| C67 | `Model/Inventory` getMetadata | invariant over the texts found |
| C68 | `Model/Retriever` state of a DTS retriever | induction on the calls |
| C69 | `Model/RemotePassage`: next, prev, parent over an endpoint | invariant: the passage is that of a position; induction on the moves |
| C70 | `Model/RemotePassage`: resolver of CTS endpoints | from the URN theorems |
| C71 | `Model/InventoryXml`: exports and parsers, for any prefix bound to the CTS namespace (the library binds the empty one); `Spec/InventoryXml`: reader of XML with resolution of names to their namespaces | the export writes the text of an explicit tree, which the reader gives back; its names resolve to the names of the CTS namespace; parsing this tree by induction |
| C72 | `Model/MetadataExport`: selection of triples, JSON dictionary | invariant of the dictionary over the triples read; the selection is a filter of the graph |
| C73 | `Model/TeiRefsDecl`: TEI export, ingest, choice of the declaration | the export writes the text of an explicit tree; induction on the patterns |
| C74 | `Model/DtsJson`: DTS JSON export of a collection | invariants of the two containers and of the context over the triples read; the derived graph from C52 |
| C75 | `Model/DtsJson`: parser of expanded documents | membership in the graph after each step; mutual induction on documents and members |
| C76 | `Model/DtsJson`: expansion of exported documents | C74 gives the values of every key and that keys expand to their predicate, C75 what they become, C25 the citation structure |
| C77 | `Model/DtsDocument`: links of a reply, documents, moves, collection and depth | the links say what is parsed, by induction on links; walks by induction on moves with the position as invariant; histories by induction on steps with the count of requests as invariant |
| C78 | `Model/DtsDocument`: childIds and what is made of them | C59 gives the listing; induction on the references |
| C79 | `Model/CtsMetadata`: properties, labels, links, languages of collections on the graph of `Model/Metadata` | membership after one call, then induction on calls; invariant of the dictionary by induction on the values read |
| C80 | `Model/CtsMetadata`: what a passage takes over, its getters | each loop by induction on the values; the predicates of the loops are apart, so that later loops read what was there before; C49 for the getters |
| C81 | `Model/DtsReference`: references with their type in the graph, sets, citations as objects | types by induction on assignments; sets by induction on their length; citations by induction on the bound of the recursion with the rank of the structure |
| C82 | `Model/LocalResolver` on top of the models of inventories, headers, texts and passages | composition: what parsing leaves in the inventory (C44), the declared scheme (C73, C21), the chosen text (C47), units, ranges, listings and neighbours (C28-C32), with the reference that is read back from the URN (C10, C12) |
| C83 | `Model/StructuredMetadata`: the CapiTainS exports and `_parse_structured_metadata`, on top of `Model/InventoryXml` and `Model/MetadataExport` | the export carries a tree whose prefixed names resolve to those of CTS, CapiTainS and the predicates; parsing the tree replays C71 and folds the restored triples into the graph; membership in the fold |
| C84 | `Model/RemoteText`: replies as trees with the XPaths of remote/cts.py, `_parse_request`, `getLabel`, `getValidReff`, `reffs`, `getTextualNode`, `getPassagePlus` over a text with its graph, scheme and log | XPaths by induction over the tree against elements in document order with the names around them; membership in the graph; induction over the levels; projection to the replies of `Model/RemotePassage` |
| C85 | `Model/RemoteMetadata`: `getMetadata` of the CTS resolver and retriever over `parseInv` of `Model/InventoryXml` | membership in the descendants against an inductive relation; the export of C71 read from inside a reply |
| C86 | `Model/InventoryGraph`: the parsers of inventories with the graph as state, and what an export reads of it | membership in the graph after each element, composed over lists of members; objects by comparison with the parsers of `Model/StructuredMetadata`; C71 and C83 are recovered as a refinement (`C86_same`) |
| C87 | `Model/CitationSetters`: the stored refsDecl, its getters and setters, histories of assignments | simulation by a machine whose state is a path (`Spec/CitationSetters`), with the relation "same path up to the numbers of placeholders"; reading and writing of texts from C21 |
| C88 | `Model/AllReffs`: `reffs` with the remembered set | C29 for each level, induction over the levels; invariant of the remembered set over histories |
| C89 | `Model/Uri`: `urlparse`, `urlunparse`, `urljoin`, `parse_qs` of urllib (compared with CPython 3.11.10 on 4500 random addresses), `parse_uri`, the dictionary of routes | the path of `urljoin` against "remove_dot_segments" and "merge" of RFC 3986 written out in `Spec/Uri`: both are computed on lists of segments, by induction over the segments |
| C90 | `Model/LocalParse`: reading of metadata files with their exceptions, the two switches, the log, dispatching | induction over the files read, in the order of reading; C44 for what is held |
| C91 | `Model/CtsObjects`: the getters of texts and of collections of resources on the graph | C49 and C79 for what `get_single` answers, and the history of calls of C79 |
| C92 | `Model/CtsObjects`: sixteen classes with their resolution order, `__eq__` and the rule of Python that a subclass is asked first | equality is that of a key made of class and printed URN; C10 for the printed URN |
| C93 | `Model/TextNodes`: the constructors of texts and passages with their keyword arguments, the setter of `urn`, the statement in the graph | induction over the walk and over the assignments; C12 for the components of the URN |
| C94 | `Model/CtsObjects`: the formats of the collection of inventories over the exports of C71 and C74 | C71_collection, C74_base, C74_members |
| C95 | the models of C29-C35, called by the programs of a reader in `Spec/Reading` | induction over the walk with C32 and C33; visible pieces of text in document order, cut into blocks at the places of units (`Lemmas/Reading`) |
| C96 | `Model/Merge`: collections as objects with addresses, several graphs, `deepcopy`, the setter of `parent`, both `update` methods | one turn of the loop described completely (`Turn` in `Lemmas/Merge`), then induction over the works with frame conditions; the effect on what is seen agrees with the value model of C41 |
| C97 | `Model/RemoteExport` on one side, `Model/LocalText`, `Model/Siblings`, `Model/Export` on the other; `Spec/Serving`: endpoints that serve a document | each call is reduced to the reply that the endpoint gives for it and that to the units of the document, which C29, C31, C35, C36, C65 and C95 relate to the local calls; induction over the units for reading on and for nested dictionaries |
| C98 | `Model/Resolvers` (the resolver of an endpoint with the elements of its passages) and `Model/LocalResolver`; `Spec/Resolvers`: programs over the three methods of a resolver | each method by C82 on one side and C97 on the other; then induction over the program, with the invariant that the references it knows are those of units |
| C99 | `Model/Dispatching` on the objects of `Model/Merge`; `Spec/Dispatching`: a library with the parents of its members, a textgroup that was read and waits | the loop over works by induction, with the invariant that each work of the textgroup has a place in the library; the two branches (textgroup known or not) establish it; sequences by induction |
| C100 | `Model/DtsReading`: the documents of `Model/DtsDocument` with their elements and exports; `Spec/DtsReading`: endpoints that serve a document, readers | pages by C59, links by C77, passages by C31 and C33; readings by induction on the units that are left; completeness of the text from C95 |
| C101 | `Model/DtsBrowse`: remote collections as trees of objects over `Model/DtsCollection`, `descendants` and what is built on it, `getMetadata`; `Spec/DtsBrowse`: hierarchies, endpoints that offer them, readings | invariants for how much was read of an object (nothing, the members, all below); induction on the hierarchy for `descendants`, on the readings for the rest; for failing endpoints (`Lemmas/DtsFailing`) an invariant that allows any listing to be read in part |
| C102 | the models of C59, C100 and C101, whose requests may fail; `Spec/DtsHarvest`: endpoints that falter, a user who collects all | a relation between the runs with and without failures that is kept by going on with what was answered, shown for each function; collecting composes C100 and C101 |
| C103 | `Model/RemotePassage` and `Model/RemoteFamily`: first, last and children as passages; `Spec/CtsHistory`: sessions with an endpoint that fails at times, a reader who tries again | invariant: what a passage knows is what the endpoint says; a relation between a reading and the wanted answer that is kept by going on; induction on the history |
| C104 | `Model/RemoteText` and `Model/RemoteExport`; `Spec/TextHistory`: sessions of a text with an endpoint that fails at times and has one citation scheme for the text | the relation of C103 for any object that makes requests (`Lemmas/Running`): what is wanted depends on the URN and the endpoint only; invariant on URN, scheme and graph; induction on the history |
| C105 | `Model/Quoting`: `unquote`, `parse_qs`, documents from the addresses of links; `Spec/Quoting`: the codings of a text, addresses with parameters, what a link names | induction on the coding, with the bytes read so far as the coding of the text read so far; UTF-8 by the lemmas of Lean's library; cutting of addresses as for C89 |
| C106 | `Model/MetadataGraph`: `getMetadata` of the local resolver with the one graph as state; `Spec/MetadataGraph`: a graph that knows of a library, histories of questions | each object made writes only statements that are there already, so all but languages is kept; languages by one invariant per turn of the loop; histories by induction; answers by the independence of the search from languages |
| C107 | `Model/PassageCache`: texts, passages and simple passages with `_children` and `_prev_next`; `Spec/PassageCache`: questions over time, answers without memory | invariant: what is remembered was listed at one of the times of asking; nothing is forgotten; the repeated readings inside `firstId`, `next` etc. agree |
| C108 | the model of C82; `Spec/FileHistory`: files that are written and removed between questions, inventories but for citation schemes | every function on inventories commutes with forgetting the schemes; induction over what happens |
| C109 | `Model/XmlObjects`, `Model/TextObjects`: `copyNode` and `passageLoop` on elements as objects, with lxml's `Element`, `append` (which moves) and `copy`; `Spec/XmlObjects`: what elements hold, new elements, histories of taking and changing | refinement: every step appends new elements that hold the value to one new element, and changes nothing else that existed |
| C110 | `Model/XmlComments`: `passageLoop` and `copyNode` with comments and processing instructions among the children (`TypeError` when one is copied on its own); `Spec/XmlComments`: comments that stand between two positions, the document without comments; `Model/TextComments`: `getTextualNode` on such documents | induction along the two paths for the exact condition; simulation of the loop by the loop on the document without comments, with children renumbered; the identifiers of the units through the list of selected elements, and so `getReffs` and every reference of a text |
| C111 | `Model/Graphs`: `set_graph`, `get_graph`, construction of metadata, collections and texts, the setters of type, model, version and parent, over several graphs; `Spec/Graphs`: the graph in force, what a program says in a graph | induction over the program from the end; each graph is the run of what was said in it, to which C48 applies; an invariant for the numbering of blank nodes |
| C112 | `Model/Copying`: `__new__` of the three classes of references and of sets, with the tuple and `__dict__` kept apart, and the protocol by which `copy`, `deepcopy` and `pickle` call it | cases on the arguments; induction over the set |
| C113 | `Model/Keys`: `__eq__` of strings, references, URNs and CTS collections with the rule by which Python asks left and right, their hashes, and `dict`; `Spec/Keys`: the content of a key, what was last said about it | cases on the classes; invariant of the dictionary (hashes right, no key twice) by induction over the program |
| C114 | `Model/Threads`: `routes`, `children.values()` with the crawl of pages, and `prevId`, `nextId`, `siblingsId` of remote CTS passages, as threads with one step for each access to shared state; `Spec/Threads`: the members of the pages up to one, paged listings, steps and failures of a thread | an invariant over all schedules (the dictionary holds the pages up to some page, and every thread is at most one page ahead of it); a measure for the end |
| C115 | `Model/ChildGenerators`: the generator of `children` with its three states (not asked, in the loop, finished), several of them over one node whose source may fail at any request; `Spec/ChildGenerators`: the children given, and what `n` calls of `next` should give | an invariant relating the state of a generator to what it gave; counting of requests |
| C116 | `Model/CitationCopies`: citations as objects that point to each other, `deepcopy` with its memo, `copy`, iteration and `match`; `Spec/CitationCopies`: what leads to what, and that one graph is a copy of another | an invariant of the memo (old to new, one to one, every object noted during a call complete at its end), a bound on nested calls by counting the objects not yet noted, and simulation for iteration and `match` |
| C117 | `Model/UrnCopies`: URN objects that have a text of their own and point to a dictionary of components, plain and deep copies, and the assignments of `Model/Urn`; `Spec/UrnCopies`: what was done to one URN, and that no two share components | an invariant (no sharing) preserved by deep copies, and induction on the program |
| C118 | `Model/UrnHolders`: texts and passages that point to URN objects, over `Model/TextNodes` and `Model/UrnCopies`; `Spec/UrnHolders`: what a text or passage says of itself, and that no two have one URN object | an invariant (no sharing) and induction on the program |

## Modelled parts, file by file

| Source | Model | What is left out |
|--------|-------|------------------|
| common/reference/_capitains_cts.py: CtsReference, CtsSinglePassageId, CtsWordReference, CtsReferenceSet, URN | `Model/Reference`, `Model/Urn` | warnings, hashing, `__str__` of word references' `repr` |
| same file: Citation, REFERENCE_REPLACER, fill, attribute | `Model/RefsDecl`, `Model/Citation` | XML.TEI export text is modelled in `Model/Exports` only where listed |
| common/reference/_base.py, _dts_1.py: BaseCitation(Set), DtsCitation(Set) | `Model/Citation`, `Model/CitationHeap` | JSON-LD expansion is a function `expandCite` |
| common/utils/xml.py: normalizeXpath, performXpath, passageLoop, copyNode | `Model/Xml` | xpath beyond child/descendant steps with attribute tests; comments and processing instructions only in `Model/XmlComments` and `Model/TextComments` |
| resources/texts/local/capitains/cts.py: getTextualNode, getReffs, getValidReff, siblings, children, simple passages | `Model/LocalText`, `Model/Siblings` | metadata, labels, refsDecl parsing from the header |
| resources/texts/base/tei.py: plain text and nested dictionary exports | `Model/Export` | exclusion entries other than names and `*`; XML string export |
| resolvers/cts/local.py: pagination | `Model/Pagination` | rounding of floating point division |
| resources/prototypes/cts/inventory.py, resolvers/utils.py, resolvers/cts/local.py: update, len, dispatching, filters, choice of a text, getMetadata | `Model/Inventory` | object identity (`Model/Collection` has it), labels, deepcopy, reading of files |
| resolvers/cts/local.py 104-123, 183-235, 295-347, 472-525 and the constructors of local texts | `Model/LocalResolver` | glob and the XML parser (files are a function from paths to documents or errors), the log and warnings, works described in the textgroup file itself, which get no path |
| common/metadata.py 210-221, resources/prototypes/cts/inventory.py 137-180 and 275-340 (CapiTainS), resources/collections/cts.py 103-137 with the parsers | `Model/StructuredMetadata` | rdflib's `compute_qname` and `lxml.objectify` (parameters), binding of new prefixes while exporting, normalisation of typed literals |
| resources/texts/remote/cts.py 63-202, 301-347, 453-467 (labels and schemes), resources/prototypes/cts/text.py 68-75 | `Model/RemoteText` | parsing of the XML itself, `dts:implements`, a label that lies in a `ti:citation` |
| resolvers/cts/api.py 101-116, retrievers/cts5.py 60-73, 179-187, resources/prototypes/metadata.py 257-272 (inventories) | `Model/RemoteMetadata` | keyword arguments other than `inventory` and `urn` |
| resources/collections/cts.py 103-340, prototypes/cts/inventory.py 187-221, 422-453, 544-575, 632-648, prototypes/metadata.py 49-93, 177-207 (the graph) | `Model/InventoryGraph` | what is written before an error; graphs other than the one of the library |
| prototypes/cts/inventory.py 477-498, 581-605, prototypes/metadata.py 182-207 (as objects) | `Model/Merge` | what was done before an error; copies of what no collection refers to |
| remote/cts.py 90-132, 368-380, 392-403, 453-467, base/tei.py 66-132 (remote) | `Model/RemoteExport` | exports that write XML; the XPath of an exclusion that is no name |
| resolvers/cts/api.py 46-102, remote/cts.py 134-153 (with elements) | `Model/Resolvers` | the metadata of a reply |
| metadata.py 209-223, 240-249, 257-272, resolvers/utils.py 68-82, local.py 237-266, 304-306 (objects) | `Model/Dispatching` | filters that change collections; the log |
| api_v1.py 149-174, _resolver_v1.py 17-37, 61-69, 81-108, tei.py 66-132 (for DTS documents) | `Model/DtsReading` | parsing XML; escapes of `repr` for characters that are not printable |
| collections/dts/_resolver.py 70-218, _base.py 72-97, metadata.py 209-223, 239-249, 257-280, api_v1.py 71-80 (trees of remote collections) | `Model/DtsBrowse` | JSON-LD expansion; what the graph holds of a collection besides its type and size; collections that an endpoint describes differently in different replies |
| common/reference/_capitains_cts.py 691-746 (assignments) | `Model/CitationSetters` | values that are neither `None` nor text |
| resources/prototypes/cts/text.py 155-174 | `Model/AllReffs` | the types of the set and its level |
| common/utils/_http.py 31-45, retrievers/dts/__init__.py 76-103 | `Model/Uri` | host names in brackets, control characters, schemes other than http, https, ftp; decoding of `%` and `+` is a parameter |
| resolvers/cts/local.py 75-102, 125-181, 252-312 (errors) | `Model/LocalParse` | messages about single texts; works described in the file of a textgroup |
| resources/prototypes/cts/inventory.py 50-64, 342-376, 691-748, resources/prototypes/metadata.py 461-495 | `Model/CtsObjects` | subclasses that a user defines |
| resources/prototypes/cts/text.py 31-66, resources/prototypes/text.py 84-100, resources/texts/local/capitains/cts.py (constructors) | `Model/TextNodes` | the XML of the node, its citation, its metadata (C80) |
| common/constants.py 136-146, common/metadata.py 36-42, 229-243, resources/prototypes/metadata.py 50-93, 182-193, resources/prototypes/text.py 42-53 (several graphs) | `Model/Graphs` | prefixes bound in a graph; members of collections (`Model/Collection`) |
| common/reference/_base.py 313-388, _capitains_cts.py 135-172, _dts_1.py 12-21 (as objects that are copied) | `Model/Copying` | the bytes of a pickle; memoisation of shared elements |
| common/reference/_base.py 313-326, _capitains_cts.py 62-172, 485-497, _dts_1.py 35-38, prototypes/cts/inventory.py 59-64 (as keys) | `Model/Keys` | classes of CTS collections (one class here; C92 has them); identity, which `==` subsumes here; the probing order of hash tables |
| retrievers/dts/__init__.py 76-103, resources/collections/dts/_resolver.py 41-47, 103-167, 187-218, resources/texts/remote/cts.py 409-451 (under threads) | `Model/Threads` | the member objects (only identifiers; a later thread replaces the objects of an earlier one by its own); threads that ask for parents; page numbers other than 1, 2, ...; that one access is not interrupted (CPython's lock) |
| resources/prototypes/text.py 295-302, 319-327 (as generators) | `Model/ChildGenerators` | what a child is besides its identifier; `close` and `throw` on generators; sources whose children change between requests |
| common/reference/_base.py 136-145, 187-274 and _capitains_cts.py 802-826 (copies) | `Model/CitationCopies` | the list `_children` as an object of its own (a plain copy shares it: `add_child` on the copy adds to the original too); Python's limit on recursion |
| common/reference/_capitains_cts.py 340-342, 353-429, 509-532 (copies) | `Model/UrnCopies` | the copying of the reference inside (C112: equal) |
| resources/prototypes/cts/text.py 40-66, resources/texts/local/capitains/cts.py 32-45, 98-152 (URN objects) | `Model/UrnHolders` | remote texts and collections, which make their URNs from strings |
| common/metadata.py: set, add, get, get_single, remove, unlink, getOr | `Model/Metadata` | values that are numbers; case of language tags |
| same file: `__export__`, selection and JSON.Std | `Model/MetadataExport` | `compute_qname` and `str.title` (parameters); serialisations of rdflib |
| common/utils/_graph.py: Subgraph | `Model/Subgraph` | bindings of prefixes, serialisation |
| resources/prototypes/metadata.py: members, descendants, look-up, parent, deletion | `Model/Collection` | type, model and version |
| common/base.py: Exportable | `Model/Exportable` | arguments of `__export__` |
| retrievers/cts5.py: call and the requests made through it; retrievers/dts/__init__.py: routes, call, collection, navigation and document requests; common/utils/_http.py: parse_pagination | `Model/Retriever` | uritemplate expansion, link header parsing, URL decoding (a function with a stated property) |
| resolvers/dts/api_v1.py: getReffs; common/reference/_base.py: BaseReferenceSet.__new__ | `Model/DtsResolver` | JSON-LD expansion; non-ASCII digits |
| resources/texts/remote/dts/_resolver_v1.py; resolvers/dts/api_v1.py: getTextualNode, getMetadata; resources/prototypes/text.py: InteractiveTextualNode | `Model/DtsDocument` | parsing of the header and of the text; metadata; `_first_id` and `_last_id`, which nothing reads |
| resources/prototypes/cts/inventory.py 66-135, 207-221, 255-273, 460-519: properties, links, languages, translations; resources/prototypes/metadata.py: labels, lang; resources/prototypes/cts/text.py 94-123; resources/prototypes/text.py: getters | `Model/CtsMetadata` | literals with datatypes given by the caller; the state of the graph after an error |
| common/reference/_dts_1.py 11-76: equality, membership, type | `Model/DtsReference` | `__repr__`; references whose parts are not strings; hashing, which `__eq__` without `__hash__` removes |
| resources/collections/dts/_resolver.py: pagination of children and parents, retrieve | `Model/DtsCollection` | metadata of members; a change of the number of items between replies |
| resources/texts/remote/cts.py: passages, siblings, first, last, children, parent, getTextualNode, getValidReff; resources/prototypes/text.py: next, prev, parent, childIds, first, last, children; resolvers/cts/api.py: getTextualNode, getSiblings, getReffs | `Model/RemotePassage`, `Model/RemoteFamily` | XML of replies (a reply is the record of what is read), labels and citation schemes taken from replies |
| resources/prototypes/cts/inventory.py: XML exports; common/reference/_capitains_cts.py: XML.CTS export of Citation; resources/collections/cts.py: parsers | `Model/InventoryXml` | structured metadata; the RDF graph (every object carries its literals); lxml (`Spec/InventoryXml` has a reader for the XML that the export writes, which refuses other XML) |
| common/reference/_capitains_cts.py: XML.TEI export and ingest of Citation; resources/texts/local/capitains/cts.py: `_findCRefPattern` | `Model/TeiRefsDecl` | lists of elements given to ingest |
| resources/prototypes/metadata.py: DTS JSON export, size, type, title; resources/collections/dts/_base.py: size, export, parse; common/utils/_json_ld.py, common/utils/dts.py | `Model/DtsJson` | `compute_qname` and `toPython` (parameters); the prefixes that rdflib binds on its own; JSON-LD expansion by pyld (`expandDoc` says what it makes of an exported document) |
| common/utils/_generic.py, expand_namespace, make_xml_node | `Model/Generic` | graph look-up of qualified names (given as input) |

## Where the code departs from the natural claim

Each line names the theorem that proves the departure.

* A subreference with a dot changes the depth of a reference (C03 notes).
* Empty parts of a reference behave differently in the three constructors: `C08_fails_for_empty_parts`.
* URNs with surplus parts lose them: `C14_surplus_parts_lost`. A passage without a work is lost on rebuild: `C17_passage_without_work_lost`.
* A dash in a scope or an xpath of two steps breaks scope/xpath splitting: `C21_fails_with_dash`, `C21_fails_with_long_xpath`.
* A fixed test whose value starts with a digit is consumed like a placeholder: `C22_numeric_constant_consumed`.
* A digit in an attribute name hides the attribute: `C63_fails_with_digit_in_name`.
* Negative levels of a DTS citation are shifted by one: `C23_negative_index_of_citation_shifted`.
* Moving an assembled citation, or `add_child`, leaves stale roots: `C24_fails_on_move`, `C24_fails_with_add_child`.
* A leading descendant step is lost by `normalizeXpath`: `C26_leading_descendant_lost`.
* lxml.objectify compares leaves by value, which can merge two branches of a range: `C28_fails_with_equal_texts`.
* Identifiers with a slash, quotation mark, hyphen, or duplicated identifiers: `C31_fails_with_slash`, `C31_fails_with_quote`,
  `C29_fails_with_hyphen`, `C31_duplicates_hide`. Range whose end is less deep than its start: `C30_range_end_above_start`.
* References with a subreference have no siblings: `C32_fails_with_subreference`. A clipped window of one unit is written
  `x-x`: `C33_clipped_to_one_unit`. The next reference of a simple range lies inside it: `C33_simple_range_next_inside`.
* The siblings of `passage.next` always raise, for every text: `C64_next_has_no_siblings`.
* A work described twice within one textgroup loses the texts of the second description: `C44_second_description_lost`. A textgroup with
  the identifier of an inventory: `C44_identifier_clash`.
* A URN object given to the metadata search matches nothing: `C45_urn_object`. An edition of another work is used when the URN of
  the work is the beginning of the other's: `C47_other_work`.
* `getMetadata` of a namespace raises although texts are under it: `C67_namespace`; of an edition gives the language of the work:
  `C67_edition_language`.
* A unit without children raises `KeyError` when asked for its first child: `C65_no_children_raises`.
* Plain text puts a space between text nodes, also inside of a word: `C35_markup_splits_words`. The simple passage of a range is
  that of its start: `C35_simple_range_is_start`.
* The nested dictionary export of a passage never succeeds: `C66_passage_export_never_succeeds`.
* `expand_namespace` replaces every occurrence of the prefix: `C53_fails_on_second_occurrence`. `make_xml_node` does not escape
  attribute values: `C56_fails_with_quote_in_attribute`.
* The page after a full last page is empty, an empty list announces items: `C46_page_after_full_last_page`, `C46_empty_list`.
* `get_single` with a language raises or not depending on the order of the graph when a value is a link: `C49_fails_with_link`.
* `Subgraph` with a limit depends on the order of the graph, and a literal can hide an object of the same string:
  `C52_limit_depends_on_order`, `C52_fails_with_same_string`.
* Moving a collection leaves it among the members of its old parent: `C39_fails_on_move`.
* Deleting a member erases the metadata of the container: `C40_container_metadata_lost`. The own identifier of a collection is
  found after its deletion: `C40_own_identifier`.
* A level of 0 is sent without the depth of the passage: `C57_level_zero`. A tuple as reference is sent as its text: `C58_tuple`.
* One reference alone is taken apart by the reference set: `C59_single`. An empty reply raises `AttributeError`: `C59_nothing`.
* Reading the parents of a remote collection hides the children on pages not yet requested: `C60_parents_first`. `len()` of
  unread children raises: `C60_no_length`. A member asks for its metadata each time: `C60_retrieve_again`.
* A page that is the first parameter of a link is not seen: `C61_first_parameter`.
* A remote passage whose siblings are never announced asks at every reading (`C62_never_announced`) and is its own next passage
  (`C69_next_unannounced`). The parent of a top-level remote passage is asked for as passage `None`: `C69_parent_of_top`.
* The resolver of CTS endpoints does not count levels from the passage given, and takes level -1 for level 1: `C70_reffs`.
* Exporting an inventory and parsing it loses the language of an edition that is not that of its work (`C71_fails_edition_language`), the
  refsDecl of levels of one step (`C71_fails_single_step`), texts of no specific kind (`C71_fails_plain`); it writes `None` for a missing language
  and reads `None` for an empty text (`C71_fails_no_language`, `C71_fails_empty_text`); the document cannot be read when an identifier holds a quote
  (`C71_fails_quote`) and nothing is found
  in it when the graph holds no CTS predicate, as for an inventory without titles (`C71_fails_undeclared`).
* The JSON export of metadata changes values to title case (`C72_fails_title`), leaves out predicates that `only` lists as plain strings
  (`C72_fails_plain_string`) and lets the list of the caller grow (`C72_fails_list_grows`).
* A reference declaration without patterns raises `IndexError` (`C73_fails_no_pattern`), a pattern without replacement `TypeError`
  (`C73_fails_no_replacement`); the TEI export of a refsDecl with double quotes is not XML (`C73_fails_double_quotes`).
* A collection cannot be exported as RDF or JSON-LD, nor with a namespace manager: `C74_fails_formats`. The prefix of its type may be missing in the
  context of its DTS document: `C74_fails_type`.
* The parents of a collection cannot be parsed (`C75_fails_parents`), nor a document with links (`C75_fails_link`, `C76_fails_link`); a changed number of
  members is added to the old one (`C75_fails_new_size`); members with the same identifier become one (`C75_fails_same_member`).
* DTS export and parsing lose the language of labels (`C76_fails_label_language`) and the datatype of texts (`C76_fails_datatype`) and give a collection without label the
  label `None` (`C76_fails_no_label`).
* Documents of a DTS endpoint: an `up` link is read only beside a `parent` link, and a `parent` link without it raises AttributeError (`C77_fails_up`,
  `C77_fails_parent`); a `collection` link that names a passage makes the collection a reference without citation (`C77_fails_collection_link`); `getReffs` ignores the level
  (`C78_fails_level`); with a single passage below, `last` is None and `children` has the whole text as second child (`C78_fails_single`).
* Collections: `get_cts_property` with a language raises StopIteration without values (`C79_fails_empty`) and keeps one of two values in a language
  (`C79_fails_two_values`); the language of a work without one is the string `None` (`C79_fails_no_language`); a literal with its own language and another
  language given are treated differently as property and as label (`C79_fails_two_languages`). `get_creator` and `get_title` of a text in an inventory always raise AttributeError, because
  they call `get_label` on the metadata, which has no such method (inventory.py 349, 358); see `C91_fails_creator_title`.
* Metadata of passages: `C80_fails_link`, `C80_fails_empty_title`, `C80_fails_no_citation`.
* DTS references: `!=` ignores the type (`C81_fails_unequal`), `"1" in references` ignores typed references (`C81_fails_contains`), comparison with a list or an equal tuple raises AttributeError
  (`C81_fails_other`), a citation structure parsed twice is not equal to itself (`C81_fails_parsed_twice`), and comparing two citations that were built with children raises RecursionError
  (`C81_fails_recursion`). References and sets of them cannot be put in a set or used as keys, because `__eq__` is defined without `__hash__` (C113).
* Local resolver: identifiers with `#` are cut in the passage (`C82_fails_hash`); a described text without file stays in the inventory, because `_clean_invalids` removes nothing, and reading it raises
  AttributeError (`C82_fails_missing_file`); the scheme in the inventory loses refsDecls of one step (`C82_fails_one_step`) and is cut at hyphens (`C82_fails_hyphen`); the empty subreference lists level 1
  for level 0 (`C82_fails_empty_subreference`) and has no neighbours but AttributeError (`C82_fails_whole_siblings`).
* Structured metadata: the type of a literal is written as `rdf:type` and read as `rdf:datatype`, so it is lost (`C83_fails_datatype`); literals that look like links become resources
  (`C83_fails_link_literal`) and resources of other schemes literals (`C83_fails_other_uri`); what lxml takes for a number is rewritten, even with a language (`C83_fails_number_text`); the structured
  metadata of the inventory itself are written and never read (`C83_fails_inventory`).
* Remote texts: `node.get("xml:lang")` never finds the attribute, so every label is kept as English (`C84_fails_language`); an empty element becomes the text `None` (`C84_fails_empty_element`);
  `_parse_request` looks for a scheme in the whole document but takes it from below the label, and raises `TypeError` when it stands elsewhere (`C84_fails_elsewhere`); `getPassagePlus` assigns the scheme of the
  passage to the text even when it has none (`C84_fails_forgets`); without a scheme in the label, `reffs` asks for one level only (`C84_fails_no_scheme`).
* Metadata of endpoints: an inventory that has the name of one of its objects hides it (`C85_fails_name`).
* The one graph: a text without language gets the one that an earlier document gave to its work (`C86_fails_language_leak`), a language
  in the structured metadata of a work is inherited only at the second reading (`C86_fails_again`), two elements with one identifier mix
  (`C86_fails_duplicate`), and a corrected inventory leaves the names of the first (`C86_fails_correction`).
* Citations: on a citation without refsDecl assignments of scope and xpath are lost (`C87_fails_unset`), and so is an xpath given without
  scope (`C87_fails_alone`); with an xpath of several steps the order of assignments matters (`C87_fails_order`); an assignment raises
  `IndexError` when the refsDecl has no step (`C87_fails_raises`).
* `reffs`: a declared level without elements makes the whole list a `KeyError` (`C88_fails_empty_level`), and the list that was read first
  is kept when another citation scheme is assigned (`C88_fails_stale`).
* DTS routes: the scheme and host of a route given by a full address are dropped (`C89_fails_host`); parameters after `;` are lost, a path
  that begins with two slashes is taken for a host, empty segments are squeezed (`C89_fails_shapes`).
* Local parsing: with `RAISE_ON_GENERIC_PARSING_ERROR` off a bad metadata file still stops the parsing, with `TypeError`
  (`C90_fails_not_passed_over`).
* CTS collections: `get_creator` and `get_title` of a text raise AttributeError (`C91_fails_creator_title`); all inventories of one class are
  equal (`C92_fails_inventories`); the collection of inventories gives `None` for the CapiTainS format, and other errors (`C94_fails_formats`).
* Texts and passages: `C93_fails_without_version`, `C93_fails_without_urn`, `C93_fails_identifier_stays`.
* DTS collections: a next page without a number raises `IndexError` (`C60_fails_link`).
* Reading: in ranges of two, five lines end with `CitationDepthError` (`C95_fails_with_one_left`); a chapter without lines makes listing lines
  chapter by chapter raise `KeyError` (`C95_fails_with_empty_unit`).
* Merging: after `work.update(other)` the texts of `other` have another parent than `other` (`C96_fails_work_update`). `textgroup.update` copies, and
  with a work it copies the graph of the whole collection, so that works that come in do not share the graph of the collection they are in
  (`C96_own_graphs`). `deepcopy` is modelled on collections and graphs only; pickling and unpickling a collection makes the same copy and is not
  modelled apart.
* Remote and local: asked with a list or a reference, a remote passage writes it after its own reference (`C97_fails_naming_from_passage`), so that the
  nested dictionary of a remote passage asks for what is no URN, and for references of a level below the deepest one
  (`C97_fails_nested_passage`). `getReffs(level, subreference)` counts from the top of a remote text and from the subreference in a local one
  (`C97_fails_relative_level`). The nested dictionary of a remote text has the first level only unless the reply with the text declares a scheme
  (`C97_fails_nested_without_scheme`). Exclusions also test the elements of the reply around a passage.
* Two resolvers: asked for the references of a level inside a passage that is at that level or below, the local resolver lists the level below the passage
  and the resolver of an endpoint asks for the level as given (`C98_fails_level_of_passage`). With level -1 the local resolver gives a list of one `None`
  for a text of two levels or more, and the other the first level (`C98_fails_level_minus_one`). The empty reference is all of the text for the local
  resolver; for an endpoint it is written after the URN unless siblings or metadata are asked for (`C98_fails_empty_reference`).
* The library as objects: a work that was read as part of a textgroup that the library has is not the work of the library, which is an older object or a
  copy; its texts are given to the work of the library, so the work that was read lists texts whose parent is another object (`C99_fails_works`).
* Reading through a DTS endpoint: when a level has a single unit, a reader who asks for the references and opens each gets the passage and then all of the
  text (`C100_fails_single`). The nested export of a document asks for passages by the `str` of a list of pieces of the `repr` of a reference, as in
  `['<DtsReference <1> [None]>']`, which is the name of no passage (`C100_fails_nested`).
* Browsing a DTS endpoint: a reply whose members have members of their own ends in a `TypeError`, because `metadata_parsed` is given twice
  (`C101_fails_nested`). A member announced without items is never looked into (`C101_fails_zero`). When the first reply is one page of several, its members
  can be used at once, but listing the members asks for that page again and puts new objects in their places (`C101_fails_replaced`). A member has the
  collection it was listed in as a parent, and reading its parents adds the same collection as another object (`C101_fails_parents`).
* `CtsText.getReffs(level=-1)` asks for as many levels as the text knows of, which is one before its label was read (remote/cts.py 75-79): the answer depends on what was asked before (`C104_fails_deepest`).
* Links are decoded as forms are: a reference with a `+`, a `#` or a byte that is not UTF-8, in an address that the server did not code, is read as another one without an error (_resolver_v1.py 92; `C105_fails_plus`, `C105_fails_hash`, `C105_fails_latin`).
* `getMetadata` of the local resolver writes: the objects it makes for the answer have the identifiers of the library, and an edition made without a language gives its node the language of its work (inventory.py 207-221). A question, even one that is answered with `UnknownCollection`, can thus change the languages of the library and what a search by language finds (`C106_fails_language`), and leaves statements about an inventory that does not exist (`C106_fails_made_up`).
* A simple passage to which another reference is assigned keeps the children and siblings of the old one, and its depth (cts.py 351-353; `C107_fails_assigned`). Passages never look again at a document that changed: `nextId` may name what `next` cannot find (`C107_fails_gone`).
* A resolver keeps the citation schemes that it read when it was made: a text whose file came later is answered by `getTextualNode` and `getReffs`, but `getMetadata` does not know it (local.py 379-390, 426-470; `C108_fails_metadata`).
* A passage taken with `simple=True`, or the text as a whole, is an element of the document: changing it changes the document and the passages taken later (cts.py 118-145; `C109_fails_simple`).
* A comment or processing instruction between the start and the end of a range, directly inside an element that contains one of them, makes the request raise `TypeError`: `copyNode` passes its `tag`, which is a function, to `SubElement` (xml.py 166-171; `C110_fails_range`).
* A comment inside a word puts a space into it in the plain text (tei.py 112-127; `C110_fails_plaintext`).
* Two collections with the same identifier and different classes in one graph share their type and model: the later one changes what the earlier answers (prototypes/metadata.py 57-58; `C111_fails_same_identifier`).
* `Metadata.getOr` looks in the graph in force, not in the graph of the subject (metadata.py 241-243; `C111_fails_getOr`).
* `metadata.remove()` takes the type of a collection away, and `type` then raises `IndexError` (prototypes/metadata.py 77; `C111_fails_emptied`).
* `copy`, `deepcopy` and `pickle` of a reference of the base class or of DTS give a reference whose start is the whole tuple and whose end raises `IndexError`: `BaseReference.__new__` does not take the tuple apart (_base.py 320-326; `C112_fails_dts`, `C112_fails_dts_set`).
* DTS references, URNs and CTS collections define `__eq__` and not `__hash__`: none can be a key of a dictionary or an element of a set (_dts_1.py 35, _capitains_cts.py 485, prototypes/cts/inventory.py 59; `C113_fails_unhashable`).
* `CtsReference('1') == DtsReference('1')` is true and `DtsReference('1') == CtsReference('1')` false (_dts_1.py 35-38; `C113_fails_symmetric`).
* With several threads the entry point may be requested by each of them (retrievers/dts/__init__.py 92-98; `C114_fails_once`).
* `parse_member` sets `_parsed` for a page without a view before `children.update` has run; a second thread that lists the members in between gets an empty listing (_resolver.py 214-216 and 130; `C114_fails_flag`).
* Between the look whether `_children` is a proxy and the reading of `_proxied` another thread may replace it by the dictionary: `AttributeError` (_resolver.py 163-165; `C114_fails_swap`).
* A generator of children that has met an error of the source gives no more children when asked again, only an end (resources/prototypes/text.py 301-302, as Python generators do; `C115_fails_after_error`).
* `copy.copy` of the root of a citation scheme gives a root whose children name the original as their root (_base.py 136-145; `C116_fails_plain`).
* `copy.copy` of a URN shares the dictionary of components: an assignment to the copy changes the components of the original but not its text (_capitains_cts.py 341-342, 353-429; `C117_fails_plain`).
* `getTextualNode(simple=True)` without a reference hands on the URN object of the text, so that an assignment to the URN of what it gives renames the text and its later passages (capitains/cts.py 44, 122-128; `C118_fails_whole`); a text made from a `URN` keeps the object (`C118_fails_given`).
