{"id": "C01", "title": "Reference strings survive parsing", "statement": "For every non-empty string with at most one '-', CtsReference(s) succeeds, str() of the result is s again, it is a range exactly when s contains '-', and .start/.end are the text before and after the '-'.", "quantifier": "all strings", "why_tests_cant": "Infinitely many reference strings, including empty halves, subreferences and unusual characters.", "anchors": ["MyCapytain/common/reference/_capitains_cts.py::CtsReference.__new__", "MyCapytain/common/reference/_capitains_cts.py::CtsReference.__str__", "MyCapytain/common/reference/_base.py::BaseReference"]}
{"id": "C02", "title": "Malformed references are refused, and only those", "statement": "CtsReference(s) is None exactly for the empty string and raises ValueError exactly for strings holding two or more '-'; every other string is accepted.", "quantifier": "all strings", "why_tests_cant": "A complete classification of all inputs, not of sampled ones.", "anchors": ["MyCapytain/common/reference/_capitains_cts.py::CtsReference.__new__"]}
{"id": "C03", "title": "Passage identifiers decompose and recompose", "statement": "The components listed by a passage identifier contain no '.', and joining them with '.' and appending the subreference gives the identifier back; when the identifier holds no '@' its depth and len() equal the number of components.", "quantifier": "all passage identifier strings", "why_tests_cant": "Ranges over all strings; the corner cases are identifiers whose subreference holds '.' or several '@'.", "anchors": ["MyCapytain/common/reference/_capitains_cts.py::CtsSinglePassageId"]}
{"id": "C04", "title": "Word subreferences", "statement": "For every word w and counter n, the subreference of '...@w[n]' has word w and counter n, '...@w' has counter 0, and its text is '@' followed by what was written.", "quantifier": "all words of word characters and all natural counters", "why_tests_cant": "Unbounded words and counters.", "anchors": ["MyCapytain/common/reference/_capitains_cts.py::CtsWordReference", "MyCapytain/common/reference/_capitains_cts.py::CtsSinglePassageId.subreference"]}
{"id": "C05", "title": "Parent of a passage", "statement": "The parent of a single reference without subreference is the reference with the last component removed; a depth-one reference has no parent; repeating .parent from a reference of depth d reaches None after exactly d steps.", "quantifier": "all single references of any depth", "why_tests_cant": "Any depth; an induction over the depth of the reference.", "anchors": ["MyCapytain/common/reference/_capitains_cts.py::CtsReference.parent"]}
{"id": "C06", "title": "Parent of a range", "statement": "The parent of a range whose two ends are deeper than one level is the common parent if the two ends share it and have no subreference, else the range of the two parents, keeping subreferences; a range mixing a depth-one end and a deeper end has no parent.", "quantifier": "all ranges", "why_tests_cant": "All pairs of ends.", "anchors": ["MyCapytain/common/reference/_capitains_cts.py::CtsReference.parent"]}
{"id": "C07", "title": "Highest end and depth of a range", "statement": "highest is the end with the fewest components (start on ties), and depth is the number of its components, hence never more than the depth of start or end.", "quantifier": "all references", "why_tests_cant": "All pairs of ends of any depth.", "anchors": ["MyCapytain/common/reference/_capitains_cts.py::CtsReference.highest", "MyCapytain/common/reference/_capitains_cts.py::CtsReference.depth"]}
{"id": "C08", "title": "One reference, three constructors", "statement": "Building a reference from 'a-b', from two arguments a, b, or from the tuple (a, b) gives equal references with the same str(); feeding a reference's tuple back (as pickle does) gives an equal reference.", "quantifier": "all start and end strings", "why_tests_cant": "Quantifies over all pairs of strings.", "anchors": ["MyCapytain/common/reference/_capitains_cts.py::CtsReference.__new__"]}
{"id": "C09", "title": "Reference set membership and index", "statement": "For every set of references and every reference string, membership, index and equality agree: s in set iff index(s) succeeds, set[index(s)] equals CtsReference(s), and no earlier element does.", "quantifier": "all finite sequences of references and all strings", "why_tests_cant": "All lists and all probes.", "anchors": ["MyCapytain/common/reference/_capitains_cts.py::CtsReferenceSet", "MyCapytain/common/reference/_base.py::BaseReferenceSet"]}
{"id": "C10", "title": "URN strings survive parsing", "statement": "str(URN(s)) is s up to its first '#', for every s that is accepted.", "quantifier": "all strings", "why_tests_cant": "All strings.", "anchors": ["MyCapytain/common/reference/_capitains_cts.py::URN.__parse__", "MyCapytain/common/reference/_capitains_cts.py::URN.__str__"]}
{"id": "C11", "title": "URN acceptance", "statement": "URN(s) is refused with ValueError when the text before '#' has fewer than three ':'-separated parts, and when the passage part of a five-part URN holds two or more '-'; it is accepted otherwise.", "quantifier": "all strings", "why_tests_cant": "A complete classification of all inputs.", "anchors": ["MyCapytain/common/reference/_capitains_cts.py::URN.__parse__"]}
{"id": "C12", "title": "URN components", "statement": "For well-formed component values, URN('urn:'+ns+':'+cts+':'+tg+'.'+wk+'.'+ver+':'+ref) exposes exactly these components, and every shorter form exposes None for the missing ones.", "quantifier": "all component strings free of the separators", "why_tests_cant": "All component strings and all shapes.", "anchors": ["MyCapytain/common/reference/_capitains_cts.py::URN.__parse__", "MyCapytain/common/reference/_capitains_cts.py::URN.namespace", "MyCapytain/common/reference/_capitains_cts.py::URN.textgroup", "MyCapytain/common/reference/_capitains_cts.py::URN.work", "MyCapytain/common/reference/_capitains_cts.py::URN.version", "MyCapytain/common/reference/_capitains_cts.py::URN.reference"]}
{"id": "C13", "title": "URN setters and str() stay coherent over any history", "statement": "After any sequence of assignments to components and calls to str(), every component reads back the last value assigned to it, the others are unchanged, and once any component was assigned str() is the text built from the current components.", "quantifier": "all sequences of assignments and reads on all URNs", "why_tests_cant": "Cached text: unbounded histories interleaving reads and writes.", "anchors": ["MyCapytain/common/reference/_capitains_cts.py::URN.__str__", "MyCapytain/common/reference/_capitains_cts.py::URN.urn_namespace", "MyCapytain/common/reference/_capitains_cts.py::URN.namespace", "MyCapytain/common/reference/_capitains_cts.py::URN.textgroup", "MyCapytain/common/reference/_capitains_cts.py::URN.work", "MyCapytain/common/reference/_capitains_cts.py::URN.version", "MyCapytain/common/reference/_capitains_cts.py::URN.reference"]}
{"id": "C14", "title": "upTo gives nested prefixes", "statement": "For a URN parsed from a well-formed string, upTo(NAMESPACE), upTo(TEXTGROUP), upTo(WORK), upTo(VERSION), upTo(PASSAGE) each extend the previous one, upTo(COMPLETE) is str(), and upTo(NO_PASSAGE) with the passage appended is upTo(PASSAGE).", "quantifier": "all well-formed URN strings", "why_tests_cant": "All component strings.", "anchors": ["MyCapytain/common/reference/_capitains_cts.py::URN.upTo"]}
{"id": "C15", "title": "upTo refuses exactly the missing levels", "statement": "upTo(k) raises KeyError exactly when the level asked is not one of the nine constants or when the component that the level ends with is missing.", "quantifier": "all URNs and all integer keys", "why_tests_cant": "All integers and all URNs.", "anchors": ["MyCapytain/common/reference/_capitains_cts.py::URN.upTo"]}
{"id": "C16", "title": "URN length and order", "statement": "len(URN) counts the present components (2 to 5, never the passage), > and < compare lengths and form strict weak orders, == is an equivalence that holds exactly when str() agree.", "quantifier": "all pairs and triples of URNs", "why_tests_cant": "All pairs and triples.", "anchors": ["MyCapytain/common/reference/_capitains_cts.py::URN.__len__", "MyCapytain/common/reference/_capitains_cts.py::URN.__gt__", "MyCapytain/common/reference/_capitains_cts.py::URN.__lt__", "MyCapytain/common/reference/_capitains_cts.py::URN.__eq__"]}
{"id": "C17", "title": "Rebuilt URNs parse back", "statement": "If every component of a URN is well formed and present down to its deepest one, parsing str() of the URN after any assignment gives the same components.", "quantifier": "all URNs with well-formed components", "why_tests_cant": "All component values.", "anchors": ["MyCapytain/common/reference/_capitains_cts.py::URN.__str__", "MyCapytain/common/reference/_capitains_cts.py::URN.__parse__"]}
{"id": "C18", "title": "Citation chain enumeration", "statement": "Iterating a citation yields it and then its descendants from the highest to the deepest level; len() is the number of citations; c[i] is the i-th, c[-1] the deepest, and an index over the last raises KeyError.", "quantifier": "all citation schemes of any depth, all indices", "why_tests_cant": "Any depth and any integer index.", "anchors": ["MyCapytain/common/reference/_capitains_cts.py::Citation.__getitem__", "MyCapytain/common/reference/_capitains_cts.py::Citation.__len__", "MyCapytain/common/reference/_base.py::BaseCitation.__iter__"]}
{"id": "C19", "title": "Matching a reference to its citation level", "statement": "match(ref) called on any citation of a scheme returns the level equal to the depth of ref, and raises KeyError when ref is deeper than the scheme.", "quantifier": "all schemes, all references, all starting levels", "why_tests_cant": "Any depth, any start.", "anchors": ["MyCapytain/common/reference/_capitains_cts.py::Citation.match", "MyCapytain/common/reference/_capitains_cts.py::Citation.ingest"]}
{"id": "C20", "title": "Placeholders are numbered left to right", "statement": "Setting scope and xpath stores a refsDecl in which the k-th '?' of scope+xpath became '$k' and nothing else changed.", "quantifier": "all scope and xpath strings", "why_tests_cant": "All strings, any number of placeholders (including more than nine).", "anchors": ["MyCapytain/common/reference/_capitains_cts.py::Citation._fromScopeXpathToRefsDecl"]}
{"id": "C21", "title": "Scope and xpath are recovered from the refsDecl", "statement": "Reading scope and xpath after setting them gives back the two strings, and scope+xpath is the refsDecl with every '$n' shown as '?', for paths over the character set the library supports.", "quantifier": "all step lists over the supported character set", "why_tests_cant": "All paths.", "anchors": ["MyCapytain/common/reference/_capitains_cts.py::Citation._parseXpathScope", "MyCapytain/common/reference/_capitains_cts.py::Citation._fromScopeXpathToRefsDecl"]}
{"id": "C22", "title": "Filling a citation", "statement": "For a refsDecl made of steps with one '@attr=\\'$k\\'' test per level, fill(values) replaces the k-th test by @attr='value k', or by @attr when the value is None, changes nothing else, and raises when there are fewer values than tests.", "quantifier": "all refsDecls of that shape, all lists of values", "why_tests_cant": "Any number of levels and any values.", "anchors": ["MyCapytain/common/reference/_capitains_cts.py::Citation.fill", "MyCapytain/common/reference/_capitains_cts.py::_ref_replacer"]}
{"id": "C23", "title": "Citation trees: levels partition the tree", "statement": "For a citation set, depth is the height, the citations at level k are exactly those k edges below, every citation appears at exactly one level, and levels beyond the depth are empty; a negative level counts from the deepest one and an excessive one raises CitationDepthError.", "quantifier": "all citation trees and all integer levels", "why_tests_cant": "All trees, by structural induction.", "anchors": ["MyCapytain/common/reference/_base.py::BaseCitationSet.__getitem__", "MyCapytain/common/reference/_base.py::BaseCitationSet.depth", "MyCapytain/common/reference/_base.py::BaseCitationSet.__len__", "MyCapytain/common/reference/_base.py::BaseCitationSet.__iter__"]}
{"id": "C24", "title": "Every citation knows its root", "statement": "After a scheme was assembled through children assignment, child assignment or ingestion, following .root from any citation of the scheme reaches the top of the scheme.", "quantifier": "all sequences of assembly steps", "why_tests_cant": "All histories of assembly.", "anchors": ["MyCapytain/common/reference/_base.py::BaseCitationSet.children", "MyCapytain/common/reference/_base.py::BaseCitation.root", "MyCapytain/common/reference/_capitains_cts.py::Citation.child", "MyCapytain/common/reference/_capitains_cts.py::Citation.ingest"]}
{"id": "C25", "title": "DTS citation trees: ingest and export are inverse", "statement": "Exporting an ingested citation structure gives the names and the nesting of the source, and ingesting an export gives a tree of the same names and nesting whose citations all have the new set as root.", "quantifier": "all finite citation trees", "why_tests_cant": "All trees.", "anchors": ["MyCapytain/common/reference/_dts_1.py::DtsCitation.ingest", "MyCapytain/common/reference/_dts_1.py::DtsCitationSet.ingest", "MyCapytain/common/reference/_base.py::BaseCitation.__export__", "MyCapytain/common/reference/_base.py::BaseCitationSet.__export__"]}
{"id": "C26", "title": "XPath step lists are normalised without loss", "statement": "Splitting an XPath on '/' and normalising yields one entry per step, in order, with descendant steps marked by a leading '/', so that joining with '/' gives back the XPath.", "quantifier": "all XPaths made of child and descendant steps", "why_tests_cant": "All paths.", "anchors": ["MyCapytain/common/utils/xml.py::normalizeXpath", "MyCapytain/common/utils/xml.py::__formatXpath__"]}
{"id": "C27", "title": "A single passage holds the target and its ancestors only", "statement": "The tree returned for a single reference is the chain of ancestors of the target, emptied of their other content, ending in a full copy of the target; an unknown reference raises.", "quantifier": "all documents, all child-step citation paths, all references", "why_tests_cant": "All trees and depths: induction over the path.", "anchors": ["MyCapytain/common/utils/xml.py::passageLoop", "MyCapytain/common/utils/xml.py::performXpath", "MyCapytain/common/utils/xml.py::copyNode", "MyCapytain/resources/texts/local/capitains/cts.py::_SharedMethods.getTextualNode"]}
{"id": "C28", "title": "A range passage holds exactly the nodes from start to end", "statement": "For a range whose start is not after its end, the citable nodes in the returned tree are exactly those from start to end inclusive, in document order, each complete.", "quantifier": "all documents with uniquely identified nodes and all ranges in document order", "why_tests_cant": "All trees, depths and pairs of positions.", "anchors": ["MyCapytain/common/utils/xml.py::passageLoop", "MyCapytain/resources/texts/local/capitains/cts.py::_SharedMethods.getTextualNode"]}
{"id": "C29", "title": "getReffs lists exactly the citable nodes in document order", "statement": "getReffs(level=k) lists one reference per node matched by the level-k citation, in document order, each with k components, the components being the identifiers on the way down.", "quantifier": "all documents, all nested schemes, all levels", "why_tests_cant": "All trees and levels.", "anchors": ["MyCapytain/resources/texts/local/capitains/cts.py::_SharedMethods.getValidReff", "MyCapytain/resources/texts/local/capitains/cts.py::_SharedMethods.getReffs"]}
{"id": "C30", "title": "Level arithmetic of getReffs", "statement": "The level effectively listed for (level, reference) is the documented one; a level deeper than the scheme raises CitationDepthError; every reference listed under a single reference starts with that reference's components.", "quantifier": "all levels and references", "why_tests_cant": "All integers and references.", "anchors": ["MyCapytain/resources/texts/local/capitains/cts.py::_SharedMethods.getValidReff"]}
{"id": "C31", "title": "Every listed reference can be retrieved", "statement": "Each reference returned by getReffs(level=k) is accepted by getTextualNode and leads to a node carrying the identifiers of the reference.", "quantifier": "all documents, all nested schemes, all levels, all listed references", "why_tests_cant": "Relates two API calls on all documents.", "anchors": ["MyCapytain/resources/texts/local/capitains/cts.py::_SharedMethods.getValidReff", "MyCapytain/resources/texts/local/capitains/cts.py::_SharedMethods.getTextualNode", "MyCapytain/common/utils/xml.py::passageLoop"]}
{"id": "C32", "title": "Siblings of a single passage", "statement": "For the i-th reference of a level, prevId is the (i-1)-th or None when first, nextId is the (i+1)-th or None when last.", "quantifier": "all reference lists without duplicates and all positions", "why_tests_cant": "All lengths and positions.", "anchors": ["MyCapytain/resources/texts/local/capitains/cts.py::CapitainsCtsPassage.siblingsId", "MyCapytain/resources/texts/local/capitains/cts.py::_SimplePassage.siblingsId"]}
{"id": "C33", "title": "Siblings of a range", "statement": "For a range covering positions i..j, prevId is the range of the same size ending at i-1 (clipped at the beginning), nextId the range of the same size starting at j+1 (clipped at the end), None at the borders.", "quantifier": "all reference lists without duplicates and all pairs i<j", "why_tests_cant": "All lengths and pairs.", "anchors": ["MyCapytain/resources/texts/local/capitains/cts.py::CapitainsCtsPassage.siblingsId"]}
{"id": "C34", "title": "prev and next are inverse", "statement": "For single passages, the next of the previous passage and the previous of the next passage are the passage itself; for ranges next-of-prev is the range itself whenever prev was not clipped.", "quantifier": "all reference lists without duplicates and all positions", "why_tests_cant": "All positions.", "anchors": ["MyCapytain/resources/texts/local/capitains/cts.py::CapitainsCtsPassage.siblingsId"]}
{"id": "C35", "title": "Plain text export keeps exactly the text not excluded", "statement": "The plain text export is the white-space-normalised concatenation, in document order, of all text not under an excluded element; with no exclusion no character of text is lost.", "quantifier": "all XML trees and exclusion lists", "why_tests_cant": "All trees.", "anchors": ["MyCapytain/resources/texts/base/tei.py::TeiResource.__export__", "MyCapytain/common/utils/_generic.py::normalize"]}
{"id": "C36", "title": "Nested dictionary export", "statement": "In the nested dictionary export each listed reference leads, component by component, to the text of its passage, and the dictionary has no other leaf.", "quantifier": "all sets of references of equal depth without duplicates", "why_tests_cant": "All reference sets.", "anchors": ["MyCapytain/resources/texts/base/tei.py::TeiResource.__export__", "MyCapytain/common/utils/_generic.py::nested_set", "MyCapytain/common/utils/_generic.py::nested_get"]}
{"id": "C37", "title": "Collection lookup", "statement": "collection[id] returns an object with that identifier which is the collection itself or one of its descendants, and raises UnknownCollection exactly when there is none; id in collection agrees with it.", "quantifier": "all collection trees and identifiers", "why_tests_cant": "All trees.", "anchors": ["MyCapytain/resources/prototypes/metadata.py::Collection.__getitem__", "MyCapytain/resources/prototypes/metadata.py::Collection.__contains__"]}
{"id": "C38", "title": "Descendants and readable descendants", "statement": "descendants lists every object reachable through members, each as often as there are paths to it, and readableDescendants keeps exactly the readable ones.", "quantifier": "all collection trees", "why_tests_cant": "All trees.", "anchors": ["MyCapytain/resources/prototypes/metadata.py::Collection.descendants", "MyCapytain/resources/prototypes/metadata.py::Collection.readableDescendants"]}
{"id": "C39", "title": "Parent assignment keeps parent and members in agreement", "statement": "After any sequence of parent assignments in which no collection is assigned twice, c.parent is p implies c (or an earlier object with the same identifier) is among the members of p, and every member of p has p as parent.", "quantifier": "all sequences of parent assignments", "why_tests_cant": "All histories on a mutable object graph.", "anchors": ["MyCapytain/resources/prototypes/metadata.py::Collection.parent", "MyCapytain/resources/prototypes/metadata.py::Collection._add_member"]}
{"id": "C40", "title": "Deleting a member", "statement": "In a tree of collections with different identifiers, after del collection[id] of an object below the collection neither its identifier nor those below it are found, every object outside the deleted subtree is still found, and of the metadata exactly the triples about the deleted object and about the collection itself are removed.", "quantifier": "all collection trees and identifiers", "why_tests_cant": "All trees.", "anchors": ["MyCapytain/resources/prototypes/metadata.py::Collection.__delitem__"]}
{"id": "C41", "title": "Merging works and textgroups", "statement": "update merges two objects with the same identifier so that every member of either is a member of the result, the incoming one winning on conflicts inside a work, and refuses other types or identifiers.", "quantifier": "all pairs of works and textgroups", "why_tests_cant": "All pairs of member sets.", "anchors": ["MyCapytain/resources/prototypes/cts/inventory.py::CtsWorkMetadata.update", "MyCapytain/resources/prototypes/cts/inventory.py::CtsTextgroupMetadata.update"]}
{"id": "C42", "title": "Inventory length", "statement": "len() of an inventory, textgroup or work is the number of texts reachable from it.", "quantifier": "all inventories", "why_tests_cant": "All trees.", "anchors": ["MyCapytain/resources/prototypes/cts/inventory.py::CtsTextInventoryMetadata.__len__", "MyCapytain/resources/prototypes/cts/inventory.py::CtsTextgroupMetadata.__len__", "MyCapytain/resources/prototypes/cts/inventory.py::CtsWorkMetadata.__len__"]}
{"id": "C43", "title": "Dispatching sends a collection to exactly one inventory", "statement": "A dispatched collection becomes a member of the inventory of the last registered filter that returned True, and of the default inventory when no filter did; no other inventory changes.", "quantifier": "all sequences of registered filters and all collections", "why_tests_cant": "Any number of arbitrary filters.", "anchors": ["MyCapytain/resolvers/utils.py::CollectionDispatcher.dispatch", "MyCapytain/resolvers/utils.py::CollectionDispatcher.add"]}
{"id": "C44", "title": "Local parsing loses no text", "statement": "After parsing any list of folders the inventories hold a text for every text described in a textgroup found, under its work and textgroup, and no other; textgroups described several times are merged. This supposes that no work is described twice within one textgroup and that identifiers tell textgroups, works and texts apart; a textgroup that no filter takes is skipped, or makes parsing fail when the resolver is set to raise.", "quantifier": "all sequences of textgroup descriptions", "why_tests_cant": "Any sequence, any number of merges.", "anchors": ["MyCapytain/resolvers/cts/local.py::CtsCapitainsLocalResolver._dispatch", "MyCapytain/resolvers/cts/local.py::CtsCapitainsLocalResolver.parse"]}
{"id": "C45", "title": "Metadata filters", "statement": "The texts returned for (urn, lang, category), the URN given as a text, are exactly those in the inventory whose citation scheme is known and that satisfy every given filter, in inventory order; a category other than edition, translation and commentary does not restrict the search.", "quantifier": "all inventories and filters", "why_tests_cant": "All inventories and filter combinations.", "anchors": ["MyCapytain/resolvers/cts/local.py::CtsCapitainsLocalResolver.__getTextMetadata__"]}
{"id": "C46", "title": "Pagination windows", "statement": "For page >= 1 and a non-empty list, pagination returns a window within the list, of at most the limit, whose announced size is the number of elements in the window; the windows of successive pages concatenate to the whole list; a page past the end gives the last page, except that the page just after a full last page is an empty page.", "quantifier": "all pages, limits and lengths", "why_tests_cant": "All integers.", "anchors": ["MyCapytain/resolvers/cts/local.py::CtsCapitainsLocalResolver.pagination"]}
{"id": "C47", "title": "Choosing the edition for a work URN", "statement": "Asking for a passage of a work URN uses the first edition of that work, and raises UnknownObjectError when the work has none, provided that no other work has a URN beginning with the same characters; the URN of a version uses the text with this URN; shorter URNs are refused.", "quantifier": "all inventories and URNs", "why_tests_cant": "All inventories.", "anchors": ["MyCapytain/resolvers/cts/local.py::CtsCapitainsLocalResolver.__getText__"]}
{"id": "C48", "title": "Metadata store semantics", "statement": "For any sequence of set, add and remove on several objects: get returns exactly the values added for that object and key since the last set or remove of that key, and operations on one object never change another's values.", "quantifier": "all operation histories on all objects and keys", "why_tests_cant": "All histories on a shared graph.", "anchors": ["MyCapytain/common/metadata.py::Metadata.set", "MyCapytain/common/metadata.py::Metadata.add", "MyCapytain/common/metadata.py::Metadata.get", "MyCapytain/common/metadata.py::Metadata.remove"]}
{"id": "C49", "title": "Single value by language", "statement": "get_single(key, lang) returns a value in that language when there is one, otherwise some value of the key, and None exactly when there is no value, whatever the iteration order of the graph, for keys whose values are all literals.", "quantifier": "all value sets, languages and iteration orders", "why_tests_cant": "Iteration order of the store is unspecified.", "anchors": ["MyCapytain/common/metadata.py::Metadata.get_single"]}
{"id": "C50", "title": "unlink and removal", "statement": "unlink removes exactly the triples that have the object as value; remove of a key removes exactly the values of that key.", "quantifier": "all graphs", "why_tests_cant": "All graphs.", "anchors": ["MyCapytain/common/metadata.py::Metadata.unlink", "MyCapytain/common/metadata.py::Metadata.remove"]}
{"id": "C51", "title": "Export dispatch", "statement": "export(output) runs the implementation of the first class in the method resolution order that declares output, uses the declared default when no output is given, and raises NotImplementedError exactly when no class declares it.", "quantifier": "all class hierarchies and outputs", "why_tests_cant": "Any hierarchy.", "anchors": ["MyCapytain/common/base.py::Exportable.export", "MyCapytain/common/base.py::Exportable.export_capacities"]}
{"id": "C52", "title": "Subgraph extraction terminates and is faithful", "statement": "Subgraph.graphiter terminates on every graph, cyclic or not, adds only triples of the source graph, and with unlimited depth adds exactly the triples whose subject is reachable from the target, provided no two terms have the same string.", "quantifier": "all finite graphs, targets and depths", "why_tests_cant": "Termination and reachability on all graphs.", "anchors": ["MyCapytain/common/utils/_graph.py::Subgraph.graphiter"]}
{"id": "C53", "title": "Namespace expansion", "statement": "expand_namespace expands a prefixed name with the registered namespace of its prefix and leaves every other string unchanged.", "quantifier": "all strings and namespace tables", "why_tests_cant": "All strings and tables.", "anchors": ["MyCapytain/common/utils/_graph.py::expand_namespace"]}
{"id": "C54", "title": "Space normalisation", "statement": "normalize leaves no two adjacent spaces, keeps every other character in order, keeps word boundaries, and is idempotent.", "quantifier": "all strings", "why_tests_cant": "All strings.", "anchors": ["MyCapytain/common/utils/_generic.py::normalize"]}
{"id": "C55", "title": "Nested dictionary access", "statement": "nested_set followed by nested_get on the same path returns the value; a set on a path that is neither a prefix nor an extension of another leaves the other's value unchanged.", "quantifier": "all dictionaries and paths", "why_tests_cant": "All paths and dictionaries.", "anchors": ["MyCapytain/common/utils/_generic.py::nested_set", "MyCapytain/common/utils/_generic.py::nested_get"]}
{"id": "C56", "title": "XML text escaping", "statement": "The text written in a generated node contains no '<' or '>' and unescapes to the given text.", "quantifier": "all strings", "why_tests_cant": "All strings.", "anchors": ["MyCapytain/common/utils/xml.py::make_xml_node"]}
{"id": "C57", "title": "CTS request parameters", "statement": "A CTS request carries exactly the parameters that are not None, plus the endpoint's inventory when none was given; asking for the references below a passage sends the URN of the text with the passage, and as level the requested level plus the depth of the passage (for a requested level other than 0, which is sent as it is).", "quantifier": "all parameter dictionaries", "why_tests_cant": "All dictionaries.", "anchors": ["MyCapytain/retrievers/cts5.py::HttpCtsRetriever.call", "MyCapytain/retrievers/cts5.py::HttpCtsRetriever.getReffs"]}
{"id": "C58", "title": "DTS request parameters", "statement": "A DTS request sends start and end for a range, ref otherwise, never both, and omits parameters that are None or at their default; every other given parameter is sent under its name, unless the route announced by the endpoint already has it.", "quantifier": "all parameter combinations", "why_tests_cant": "All combinations.", "anchors": ["MyCapytain/retrievers/dts/__init__.py::HttpDtsRetriever.call", "MyCapytain/retrievers/dts/__init__.py::_parse_ref_parameters"]}
{"id": "C59", "title": "DTS reference pages are crawled completely and once", "statement": "When the page links of a navigation endpoint form a finite chain, getReffs requests each page of the chain once, with what was asked for, and returns the concatenation of their members in order (when they are not exactly one), with the level and citation of the last page; conversely every result comes from such a chain.", "quantifier": "all finite chains of pages", "why_tests_cant": "Any number of pages.", "anchors": ["MyCapytain/resolvers/dts/api_v1.py::HttpDtsResolver.getReffs"]}
{"id": "C60", "title": "DTS collection members are complete when read", "statement": "Iterating over the children of a remote collection, or looking up one that has not come in, requests all remaining pages first, so that the result covers every page, also when requests failed before, provided the parents were not read; iterating over the parents covers every page of theirs; once complete no further request is made.", "quantifier": "all finite chains of pages and all sequences of reads", "why_tests_cant": "All histories of reads.", "anchors": ["MyCapytain/resources/collections/dts/_resolver.py::PaginatedProxy", "MyCapytain/resources/collections/dts/_resolver.py::HttpResolverDtsCollection"]}
{"id": "C61", "title": "Page links", "statement": "parse_pagination reports for each of the relations first, previous, next, current and last the page number written in the (last) link of this relation after another parameter, and None when the link is absent.", "quantifier": "all link headers", "why_tests_cant": "All link combinations.", "anchors": ["MyCapytain/common/utils/_http.py::parse_pagination"]}
{"id": "C62", "title": "Remote passage siblings", "statement": "The previous and next passage of a remote passage are those announced by the endpoint, with the passage or when first asked for; an announced absence is remembered, and no request is made once they are announced; a failed request is made again by the next reading. The identifiers of the first unit and of the units inside are requested once.", "quantifier": "all replies and all sequences of reads", "why_tests_cant": "All histories of reads.", "anchors": ["MyCapytain/resources/texts/remote/cts.py::CtsPassage"]}
{"id": "C63", "title": "The attribute of a citation level", "statement": "The attribute reported for a citation level (the one whose values are the reference parts of that level) is the attribute tested by the last numbered placeholder of its refsDecl.", "quantifier": "all refsDecl strings made of tests, fixed tests and plain text", "why_tests_cant": "Any number of tests and any attribute names.", "anchors": ["MyCapytain/common/reference/_capitains_cts.py::Citation.attribute"]}
{"id": "C64", "title": "Navigation can be repeated", "statement": "The passage reached with next or prev can itself be navigated: its own siblings, children and parent are those of the same reference in the whole text.", "quantifier": "all texts, passages and sequences of next, prev and children steps", "why_tests_cant": "Any number of steps in any text.", "anchors": ["MyCapytain/resources/texts/local/capitains/cts.py::CapitainsCtsPassage.next", "MyCapytain/resources/texts/local/capitains/cts.py::CapitainsCtsPassage.prev", "MyCapytain/resources/texts/local/capitains/cts.py::CapitainsCtsPassage.getTextualNode"]}
{"id": "C65", "title": "Children of a passage", "statement": "The children of a passage are the citable units of the next level under it, in document order; a passage of the deepest level has none; the first and last child are the ends of that list.", "quantifier": "all texts and all their citable units", "why_tests_cant": "Any document and depth.", "anchors": ["MyCapytain/resources/texts/local/capitains/cts.py::CapitainsCtsPassage.childIds", "MyCapytain/resources/prototypes/text.py::InteractiveTextualNode.firstId", "MyCapytain/resources/prototypes/text.py::InteractiveTextualNode.lastId"]}
{"id": "C66", "title": "Nested dictionary export of a passage", "statement": "The nested dictionary export of a passage leads from the references below the passage to their texts, as it does for a text.", "quantifier": "all texts and passages", "why_tests_cant": "Any document and passage.", "anchors": ["MyCapytain/resources/texts/base/tei.py::TeiResource.__export__", "MyCapytain/resources/texts/local/capitains/cts.py::CapitainsCtsPassage.getTextualNode", "MyCapytain/common/reference/_capitains_cts.py::CtsReference.__new__"]}
{"id": "C67", "title": "Metadata of the local resolver", "statement": "getMetadata without identifier gives the whole collection and with the name of an inventory this inventory; with the URN of a textgroup, work or text it gives an object with this URN below which are exactly the texts of the inventories under this URN whose citation scheme is known, with the same URN, kind and citation scheme (and language, except that an edition takes that of its work); with no such text it raises UnknownCollection.", "quantifier": "all inventories and URNs", "why_tests_cant": "Any number of inventories, textgroups, works and texts.", "anchors": ["MyCapytain/resolvers/cts/local.py::CtsCapitainsLocalResolver.getMetadata"]}
{"id": "C68", "title": "The entry point of a DTS endpoint is requested once", "statement": "Whatever is asked of a DTS retriever, and in whatever order, its entry point is requested once, before everything else, and every request goes to the route that the entry point announced.", "quantifier": "all sequences of calls", "why_tests_cant": "All histories of calls.", "anchors": ["MyCapytain/retrievers/dts/__init__.py::HttpDtsRetriever.routes", "MyCapytain/retrievers/dts/__init__.py::HttpDtsRetriever.call"]}
{"id": "C69", "title": "Navigating remote passages", "statement": "On an endpoint that holds the units of a text in order and announces their siblings, with the passages or when asked, any sequence of next and prev readings from any unit leads to the passage of the unit that lies there, and to None once it leaves the text; the parent of a passage with two components or more is the passage without the last one.", "quantifier": "all endpoints, units and sequences of next and prev", "why_tests_cant": "Any number of units and steps.", "anchors": ["MyCapytain/resources/texts/remote/cts.py::CtsPassage", "MyCapytain/resources/prototypes/text.py::InteractiveTextualNode.next", "MyCapytain/resources/prototypes/text.py::InteractiveTextualNode.prev", "MyCapytain/resources/prototypes/text.py::InteractiveTextualNode.parent"]}
{"id": "C70", "title": "The resolver of CTS endpoints", "statement": "getTextualNode, getSiblings and getReffs of the resolver of a CTS endpoint cost one request each, for the URN of the text followed by the passage if one is given; getTextualNode gives a passage with this URN and the announced siblings, getSiblings the announced siblings and getReffs the passages of the URNs of the reply, in its order.", "quantifier": "all texts, passages and replies", "why_tests_cant": "Any text, passage and reply.", "anchors": ["MyCapytain/resolvers/cts/api.py::HttpCtsResolver.getTextualNode", "MyCapytain/resolvers/cts/api.py::HttpCtsResolver.getSiblings", "MyCapytain/resolvers/cts/api.py::HttpCtsResolver.getReffs"]}
{"id": "C71", "title": "Inventories survive export to XML and parsing", "statement": "Exporting an inventory, textgroup, work or text to XML with its namespaces and parsing the document gives it back: same identifiers, languages, names, titles, labels, descriptions, subjects, kinds and citation schemes, nothing lost and nothing added, the texts of a work sorted by kind, double quotes of a citation scheme as single quotes and a missing level name as the empty name. This holds when every literal has a language and a text, no attribute value holds markup, the levels of the schemes have two steps or more, the graph has a CTS predicate and editions have the language of their work. A collection of inventories reads as one inventory with all their textgroups. A second trip changes nothing.", "quantifier": "all inventories within those conditions", "why_tests_cant": "Any number of textgroups, works, texts, literals and citation levels, with any text in them.", "anchors": ["MyCapytain/resources/prototypes/cts/inventory.py::PrototypeCtsCollection.__xml_export_generic__", "MyCapytain/resources/prototypes/cts/inventory.py::CtsTextMetadata.__export__", "MyCapytain/common/reference/_capitains_cts.py::Citation.__export__", "MyCapytain/resources/collections/cts.py::XmlCtsTextInventoryMetadata.parse", "MyCapytain/resources/collections/cts.py::XmlCtsWorkMetadata.parse", "MyCapytain/resources/collections/cts.py::XmlCtsCitation.ingest"]}
{"id": "C72", "title": "JSON export of metadata", "statement": "The JSON export of the metadata of an object has one entry for every predicate of the object that is asked for, and no other: all of them without filters; with only, those listed as URIs and those whose namespace is listed; with exclude, those that are not listed and whose namespace is not. The entry shows for every language all literals in this language and for no language those without, a single one as a string and several as a list, in title case; predicates that have only links have an empty entry. The export without filters always succeeds, with a filter it raises exactly when a predicate whose namespace is needed has none. The list given as only grows, but using it again gives the same results.", "quantifier": "all graphs, objects, filters and orders in which rdflib reads a graph", "why_tests_cant": "Any number of predicates, languages and values, read in any order.", "anchors": ["MyCapytain/common/metadata.py::Metadata.__export__"]}
{"id": "C73", "title": "Citation schemes in TEI headers", "statement": "A local text opened without a citation scheme gets the scheme that the first CTS reference declaration of its document describes: one level for every pattern, with its name and the expression inside of its #xpath(...), the last pattern being the top level and the first the deepest; without such a declaration MissingRefsDecl is raised, and a scheme given to the constructor is kept. A declaration made of the TEI exports of the levels of a scheme, the deepest first, gives that scheme back, a missing name becoming the empty name, when names and expressions hold no double quote and no markup.", "quantifier": "all documents, schemes and numbers of levels", "why_tests_cant": "Headers hold any number of declarations and patterns at any place, with any expressions.", "anchors": ["MyCapytain/resources/texts/local/capitains/cts.py::CapitainsCtsText._findCRefPattern", "MyCapytain/common/reference/_capitains_cts.py::Citation.ingest", "MyCapytain/common/reference/_capitains_cts.py::Citation.__export__"]}
{"id": "C74", "title": "DTS documents of collections", "statement": "The DTS document of a collection shows its identifier, its type, a title, its number of members, a description when there is one, its members with the same information, in their order, when that number is not 0, and its citation structure and depth. Under the key of a predicate it shows exactly the values that the collection has for it, each once: in the Dublin Core part for Dublin Core terms, in the extensions for other namespaces, and nowhere for the namespaces that have their own place. Expanding a key with the context of the document gives the predicate back. The export succeeds whenever types and numbers can be written and predicates have qualified names.", "quantifier": "all graphs, collections, members, citation structures and orders in which rdflib reads a graph", "why_tests_cant": "Any number of predicates, values and members, read in any order.", "anchors": ["MyCapytain/resources/prototypes/metadata.py::Collection.__export__", "MyCapytain/common/utils/_json_ld.py::literal_to_dict", "MyCapytain/resources/collections/dts/_base.py::DtsCollection.__export__"]}
{"id": "C75", "title": "Parsing DTS documents of collections", "statement": "After a DTS document was parsed the graph holds what the document and its members, at any depth, state: types, titles as labels, numbers of members, descriptions, Dublin Core terms and extensions; and what it held before, except the types and models of these collections. The collection has the citation structure of the document and the members as children, by identifier and in their order. Its size is the announced number and its type the last one listed. Parsing the document again changes nothing. A document is parsed exactly when it and all its members have an identifier, types, a title and a number, and hold only values.", "quantifier": "all graphs and all documents, with members nested at any depth and distinct identifiers", "why_tests_cant": "Any number of members, values and predicates, and any graph before.", "anchors": ["MyCapytain/resources/collections/dts/_base.py::DtsCollection.parse", "MyCapytain/resources/collections/dts/_base.py::DtsCollection._parse_metadata", "MyCapytain/resources/collections/dts/_base.py::DtsCollection.parse_member", "MyCapytain/resources/collections/dts/_base.py::DtsCollection.size", "MyCapytain/common/utils/dts.py::parse_metadata", "MyCapytain/common/utils/_json_ld.py::dict_to_literal"]}
{"id": "C76", "title": "Collections survive DTS export and parsing", "statement": "Exporting a collection as DTS document, expanding and parsing it gives the identifier, the members with their base information, a citation structure with the same names, nesting and depth, and for every predicate outside the namespaces with their own place exactly the values of the collection, with languages, and nothing else. This holds when its values are literals whose Python value gives the same literal, and its members are distinct. The type is restored when it belongs to Hydra or when a predicate of the collection has its prefix.", "quantifier": "all graphs, collections, members and citation structures within those conditions, all orders in which rdflib reads a graph", "why_tests_cant": "Any number of predicates, values, languages and members.", "anchors": ["MyCapytain/resources/collections/dts/_base.py::DtsCollection.parse", "MyCapytain/resources/prototypes/metadata.py::Collection.__export__", "MyCapytain/resources/collections/dts/_base.py::DtsCollection.__export__"]}
{"id": "C77", "title": "Going from document to document of a DTS endpoint", "statement": "A document knows the next and the previous passage that the last link of that relation in its reply names, and the parent that the up link names when there is also a parent link; a reply can be read exactly when a parent link comes with an up and a last link. On an endpoint that announces the neighbours of every passage, any sequence of next and prev readings leads to the document of the passage that lies there, and to None once it leaves the text, with one request for each passage on the way; the request names the text and the passage, a range by its start and end. The collection of the text is requested at most once in any history of readings and of going on to other documents, and the depth that it announced stays.", "quantifier": "all replies, endpoints, passages, sequences of moves and histories", "why_tests_cant": "Any number of passages, links and steps, and an endpoint that may change in between.", "anchors": ["MyCapytain/resources/texts/remote/dts/_resolver_v1.py::DtsResolverDocument.parse", "MyCapytain/resources/texts/remote/dts/_resolver_v1.py::DtsResolverDocument.getTextualNode", "MyCapytain/resources/texts/remote/dts/_resolver_v1.py::DtsResolverDocument.collection", "MyCapytain/resources/texts/remote/dts/_resolver_v1.py::DtsResolverDocument.depth", "MyCapytain/resources/prototypes/text.py::InteractiveTextualNode.next", "MyCapytain/resources/prototypes/text.py::InteractiveTextualNode.prev", "MyCapytain/resources/prototypes/text.py::InteractiveTextualNode.parent", "MyCapytain/resolvers/dts/api_v1.py::HttpDtsResolver.getTextualNode"]}
{"id": "C78", "title": "Children of a DTS document", "statement": "The childIds of a document are the references that the pages of the endpoint list below its passage, in order; they are requested at the first reading and never again. firstId and lastId are the first and the last of them, first and last their documents, and children gives one document for each, in order, with one request for each. Without references there is no first and no last child.", "quantifier": "all endpoints, passages and numbers of pages and references, except a single reference", "why_tests_cant": "Any number of pages and references.", "anchors": ["MyCapytain/resources/texts/remote/dts/_resolver_v1.py::DtsResolverDocument.getReffs", "MyCapytain/resources/prototypes/text.py::InteractiveTextualNode.childIds", "MyCapytain/resources/prototypes/text.py::InteractiveTextualNode.children", "MyCapytain/resources/prototypes/text.py::InteractiveTextualNode.firstId", "MyCapytain/resources/prototypes/text.py::InteractiveTextualNode.lastId", "MyCapytain/resources/prototypes/text.py::InteractiveTextualNode.first", "MyCapytain/resources/prototypes/text.py::InteractiveTextualNode.last"]}
{"id": "C79", "title": "Properties, labels, links and languages of CTS collections", "statement": "After any calls of set_cts_property, set_label and set_link on any collections, exactly the statements hold that held before or that one of the calls made: a property in the language given or the literal's own, the same text as a label when the property is the title of its class, a link. get_cts_property gives a dictionary with one entry for every language in which the property has a value, the entry being a value in that language; with a language it gives a value in it when there is one, otherwise some value. get_label does the same for labels. get_link lists every value once. The language of a work or text is the one that was set last; a new text takes the language its work has then. get_translation_in gives the translations in a language, in order.", "quantifier": "all graphs, histories of calls, collections and orders in which rdflib reads a graph", "why_tests_cant": "Any number of collections, values and languages, read in any order.", "anchors": ["MyCapytain/resources/prototypes/cts/inventory.py::PrototypeCtsCollection.get_cts_property", "MyCapytain/resources/prototypes/cts/inventory.py::PrototypeCtsCollection.set_cts_property", "MyCapytain/resources/prototypes/cts/inventory.py::PrototypeCtsCollection.get_link", "MyCapytain/resources/prototypes/cts/inventory.py::PrototypeCtsCollection.set_link", "MyCapytain/resources/prototypes/cts/inventory.py::CtsWorkMetadata.get_translation_in", "MyCapytain/resources/prototypes/cts/inventory.py::CtsWorkMetadata.lang", "MyCapytain/resources/prototypes/metadata.py::Collection.get_label", "MyCapytain/resources/prototypes/metadata.py::Collection.set_label", "MyCapytain/resources/prototypes/metadata.py::ResourceCollection.lang"]}
{"id": "C80", "title": "Metadata of passages from their collections", "statement": "set_metadata_from_collection says about the passage what its collections say, under the CTS predicates and those of Dublin Core: the names of the textgroup, the titles of the work, and the labels and descriptions of the text, each in its language; nothing else in the graph changes, and doing it again changes nothing. Then creator, title, subject and description of a passage about which nothing was said before are, in whatever order the graph is read, one of these in the language asked for when there is one, otherwise some of these, and None exactly without any. A citation scheme of the passage stays, otherwise it takes the one of the text.", "quantifier": "all graphs, passages, collections, languages and orders in which rdflib reads a graph", "why_tests_cant": "Any number of values and languages, read in any order.", "anchors": ["MyCapytain/resources/prototypes/cts/text.py::PrototypeCtsNode.set_metadata_from_collection", "MyCapytain/resources/prototypes/text.py::TextualElement.get_creator", "MyCapytain/resources/prototypes/text.py::TextualElement.get_title", "MyCapytain/resources/prototypes/text.py::TextualElement.get_subject", "MyCapytain/resources/prototypes/text.py::TextualElement.get_description"]}
{"id": "C81", "title": "Equality of DTS references, reference sets and citations", "statement": "Two DTS references are equal exactly when they have the same start, end and type, the type being the one given or assigned last; with pairs and strings this equality is reflexive, symmetric and transitive. A reference is in a set exactly when an equal one is, a string when it is the start of a reference without end and type. Two sets are equal exactly when they have equal references in the same order, the same level and the same citations. Two citations parsed from one structure are equal exactly when name, set and children are; comparing them always ends.", "quantifier": "all references, sets and citation structures, all histories of assignments of types, all orders in which rdflib reads a graph", "why_tests_cant": "Structures nested to any depth and sets of any length.", "anchors": ["MyCapytain/common/reference/_dts_1.py::DtsReference.__eq__", "MyCapytain/common/reference/_dts_1.py::DtsReference.type", "MyCapytain/common/reference/_dts_1.py::DtsReferenceSet.__contains__", "MyCapytain/common/reference/_dts_1.py::DtsReferenceSet.__eq__", "MyCapytain/common/reference/_dts_1.py::DtsCitation.__eq__"]}
{"id": "C82", "title": "The local resolver from folders to answers", "statement": "Parsing folders gives a library in which the URN of each described text means this text, with the file textgroup.work.version.xml of its folder and the citation scheme that the header of this file declares. For the URN of a text, or of a work whose first edition it is, the resolver answers each reference of a unit with this unit, its URN and its reference, a range with what lies between its ends, no reference with the whole text; neighbours are the units before and after, listings the units of a level, all of them, in order and retrievable. Unknown texts, works without edition, textgroups, unknown references, missing files and unreadable files each have their error, whatever is asked.", "quantifier": "all folders that describe a library, all files, all documents and schemes that fit, all URNs, units, ranges and levels", "why_tests_cant": "The answer depends on the inventory, the headers and the documents together, each of any size.", "anchors": ["MyCapytain/resolvers/cts/local.py::CtsCapitainsLocalResolver.parse", "MyCapytain/resolvers/cts/local.py::CtsCapitainsLocalResolver._parse_text", "MyCapytain/resolvers/cts/local.py::CtsCapitainsLocalResolver.__getText__", "MyCapytain/resolvers/cts/local.py::CtsCapitainsLocalResolver.getTextualNode", "MyCapytain/resolvers/cts/local.py::CtsCapitainsLocalResolver.getSiblings", "MyCapytain/resolvers/cts/local.py::CtsCapitainsLocalResolver.getReffs", "MyCapytain/resources/texts/local/capitains/cts.py::CapitainsCtsText"]}
{"id": "C83", "title": "Structured metadata of inventories survive export and parsing", "statement": "Exporting an inventory, textgroup, work or text with its structured metadata gives an XML document. Parsing it gives the same objects as the export without structured metadata, and adds to the graph, for every textgroup, work and text, each of its metadata that are not of CTS, DTS or RDF, with its predicate and with a value that depends only on its text, its language and what lxml takes for a number; nothing else is added, and no object receives metadata of another. A value comes back unchanged exactly when it is a resource urn:, http:, https: or hdl:, or a literal that does not look like one and has either a language and no type or the type that lxml finds.", "quantifier": "all inventories with any number of objects, all graphs, all predicates with a declared prefix, all values, all orders of reading the graph", "why_tests_cant": "Values are written with one attribute and read with another, and are classified by their text; only a statement over all values says which survive.", "anchors": ["MyCapytain/resources/prototypes/cts/inventory.py::PrototypeCtsCollection.__xml_export_generic__", "MyCapytain/resources/prototypes/cts/inventory.py::CtsText.__export__", "MyCapytain/common/metadata.py::Metadata.__export__", "MyCapytain/resources/collections/cts.py::_parse_structured_metadata"]}
{"id": "C84", "title": "Labels, citation schemes and references of remote texts", "statement": "Replies of a CTS endpoint are read as XML documents. Reading the label of a reply, or the repeated request, says of the text, under the CTS property and under Dublin Core, what the elements groupname, title, label and description say, and nothing else; the getters then answer from them. A citation scheme that is set is never replaced by reading a label; otherwise the first citation below the label is adopted with all its levels. All references of a text cost one request for each level of its scheme, after one for the label when the scheme is not known, and are the references the replies list, in order; a failing request makes all of them fail. A passage is the one navigation finds; its labels come from GetPassagePlus.", "quantifier": "all documents, endpoints, texts, graphs, schemes of any depth, orders of reading the graph", "why_tests_cant": "The same method reads labels, requests and schemes of every reply, and the scheme decides the number of later requests; only a statement over all documents and histories covers it.", "anchors": ["MyCapytain/resources/texts/remote/cts.py::_SharedMethod._parse_request", "MyCapytain/resources/texts/remote/cts.py::_SharedMethod.getLabel", "MyCapytain/resources/texts/remote/cts.py::_SharedMethod.getValidReff", "MyCapytain/resources/texts/remote/cts.py::_SharedMethod.getTextualNode", "MyCapytain/resources/texts/remote/cts.py::_SharedMethod.getPassagePlus", "MyCapytain/resources/texts/remote/cts.py::CtsText.reffs", "MyCapytain/resources/texts/remote/cts.py::CtsPassage._parse", "MyCapytain/resources/prototypes/cts/text.py::PrototypeCtsNode.get_cts_metadata"]}
{"id": "C85", "title": "Metadata of collections and texts from CTS endpoints", "statement": "Asking the resolver of a CTS endpoint for the metadata of an identifier sends one GetCapabilities request with that identifier and the inventory asked for, and gives an object of the inventory in the reply that has this identifier, with its parents; without an identifier it gives the inventory, and IndexError is raised exactly when the inventory has no such object. From an endpoint that answers with an exported inventory with unique identifiers, every textgroup, work and text is found as it is after the export.", "quantifier": "all endpoints, identifiers, inventories of any size, replies around them", "why_tests_cant": "The answer of the server is an arbitrary document and the search goes through all objects of it; a test fixes one.", "anchors": ["MyCapytain/resolvers/cts/api.py::HttpCtsResolver.getMetadata", "MyCapytain/retrievers/cts5.py::HttpCtsRetriever.getMetadata", "MyCapytain/retrievers/cts5.py::HttpCtsRetriever.getCapabilities", "MyCapytain/resources/prototypes/metadata.py::Collection.descendants"]}
{"id": "C86", "title": "Statements of parsed inventories in the one graph", "statement": "Parsing an inventory, a textgroup or a work adds to the graph of the library, under every predicate but those of class, model and language, exactly what the elements say of their objects (names, titles, labels, descriptions, links, parents, structured metadata), and keeps all that was there; of other nodes it changes nothing. When identifiers differ, each object has the class, the model and the language of its element alone. The objects and the errors do not depend on the graph. When nothing was known of the objects, what the export reads of them is the inventory in which every object carries its own metadata. Two documents may be read in either order, and reading one twice changes nothing when no language is left open.", "quantifier": "all graphs before, all documents of any size, with unique or repeated identifiers, all orders in which the graph is read", "why_tests_cant": "The graph is shared by everything that was parsed before; tests start from an empty one and read one document.", "anchors": ["MyCapytain/resources/collections/cts.py::XmlCtsTextInventoryMetadata.parse", "MyCapytain/resources/collections/cts.py::XmlCtsTextgroupMetadata.parse", "MyCapytain/resources/collections/cts.py::XmlCtsWorkMetadata.parse", "MyCapytain/resources/collections/cts.py::XmlCtsTextMetadata.parse_metadata", "MyCapytain/resources/prototypes/metadata.py::Collection.__init__", "MyCapytain/resources/prototypes/metadata.py::Collection.parent", "MyCapytain/resources/prototypes/cts/inventory.py::CtsTextMetadata.__init__"]}
{"id": "C87", "title": "Scope, xpath and refsDecl of a citation after any assignments", "statement": "A citation can be thought of as one path, whose last step is the xpath and whose other steps are the scope. Whatever is assigned to refsDecl, scope and xpath, one after the other, on a new citation or on one made from a scope and an xpath or from a refsDecl, the three read back as those of the path that results, None changes nothing, and no assignment of a well-formed path raises. Placeholders are numbered from left to right after each assignment of scope or xpath. Scope and a one-step xpath can be assigned in either order.", "quantifier": "all histories of assignments of well-formed paths; single assignments of arbitrary text", "why_tests_cant": "The three are one stored string that is taken apart and put together by regular expressions at each assignment; tests assign once.", "anchors": ["MyCapytain/common/reference/_capitains_cts.py::Citation.__init__", "MyCapytain/common/reference/_capitains_cts.py::Citation.scope", "MyCapytain/common/reference/_capitains_cts.py::Citation.xpath", "MyCapytain/common/reference/_capitains_cts.py::Citation.refsDecl"]}
{"id": "C88", "title": "All references of a local text", "statement": "reffs of a local text lists the references of the citable units of all levels, the first level first and each level in document order, each once, a unit after the one it belongs to; each can be retrieved. Once a reading gave references, all later ones give the same; one that fails can be tried again.", "quantifier": "all documents and citation schemes that fit, all histories of readings and assignments", "why_tests_cant": "It is about documents of any depth and size, and about a set that is remembered.", "anchors": ["MyCapytain/resources/prototypes/cts/text.py::PrototypeCtsText.reffs", "MyCapytain/resources/texts/local/capitains/cts.py::_SharedMethods.getReffs", "MyCapytain/resources/texts/local/capitains/cts.py::_SharedMethods.getValidReff"]}
{"id": "C89", "title": "Addresses of the routes of a DTS endpoint", "statement": "The entry point of a DTS endpoint names its three routes. A route that is given by a path, with or without a query, is asked for at the address that RFC 3986 makes of this path relative to the endpoint, and the parameters of its query, each with its values in order, go along with those of every request; a route that is only a query is asked for at the endpoint itself. When one of the three is missing, every request raises KeyError.", "quantifier": "all HTTP endpoints with or without a port, a path and a query, and all paths without parameters and empty segments, with any number of dot segments", "why_tests_cant": "It ranges over all addresses; tests have two entry points.", "anchors": ["MyCapytain/common/utils/_http.py::parse_uri", "MyCapytain/retrievers/dts/__init__.py::HttpDtsRetriever.routes", "MyCapytain/retrievers/dts/__init__.py::HttpDtsRetriever.call"]}
{"id": "C90", "title": "Errors while folders are parsed", "statement": "When a metadata file cannot be read, the local resolver stops at the first such file, logs its name, raises, and leaves its collection as it was. When all files can be read, a resolver made without a dispatcher holds every text they describe in its one inventory, and neither of the two switches for errors matters. A textgroup that a filter refuses stops the parsing when RAISE_ON_UNDISPATCHED is set, and is otherwise logged and passed over, the others being dispatched as if it were not there.", "quantifier": "all folders, all positions of files that cannot be read, all filters and settings of the switches", "why_tests_cant": "It is about every position at which reading may fail.", "anchors": ["MyCapytain/resolvers/cts/local.py::CtsCapitainsLocalResolver.__init__", "MyCapytain/resolvers/cts/local.py::CtsCapitainsLocalResolver.parse", "MyCapytain/resolvers/cts/local.py::CtsCapitainsLocalResolver._parse_textgroup_wrapper", "MyCapytain/resolvers/cts/local.py::CtsCapitainsLocalResolver._parse_work_wrapper", "MyCapytain/resolvers/cts/local.py::CtsCapitainsLocalResolver._dispatch_container"]}
{"id": "C91", "title": "What a text of an inventory says of itself", "statement": "get_description of a text gives a value of its CTS description and get_subject one of its labels: one in the language asked for if there is one, otherwise another one, and None exactly when there is none; after any calls that set properties it is one that was set for this text. The four getters of a collection of resources do so for the Dublin Core creator, title, description and subject.", "quantifier": "all graphs with literal values, all nodes and languages, all histories of calls that set properties", "why_tests_cant": "It ranges over all graphs and histories of calls.", "anchors": ["MyCapytain/resources/prototypes/cts/inventory.py::CtsText.get_description", "MyCapytain/resources/prototypes/cts/inventory.py::CtsText.get_subject", "MyCapytain/resources/prototypes/metadata.py::ResourceCollection.get_title"]}
{"id": "C92", "title": "Equality of CTS collections", "statement": "Two texts, works or textgroups are equal exactly when they are the same object, or are of the same class and were made from the same URN, fragments aside; after assignments to components of the URN, by what the URN reads then. Equality is reflexive, symmetric and transitive.", "quantifier": "all collections of the sixteen classes, all URNs, all assignments to components of a URN", "why_tests_cant": "It is about all pairs and triples of objects.", "anchors": ["MyCapytain/resources/prototypes/cts/inventory.py::PrototypeCtsCollection.__eq__"]}
{"id": "C93", "title": "URNs of texts and passages", "statement": "A text made from a URN string has this string as identifier and what it reads as URN. The passage that any number of calls of getTextualNode leads to has the URN of the text with the last reference asked for as identifier and URN, and this reference. After any assignments of URNs, the URN is the last one accepted; a rejected one changes nothing.", "quantifier": "all CTS URNs with a version, all sequences of plain references, all sequences of assignments", "why_tests_cant": "It ranges over all URNs and walks of any length.", "anchors": ["MyCapytain/resources/prototypes/text.py::CtsText", "MyCapytain/resources/prototypes/cts/text.py::PrototypeCtsNode.urn", "MyCapytain/resources/texts/local/capitains/cts.py::CapitainsCtsPassage", "MyCapytain/resources/texts/local/capitains/cts.py::_SimplePassage"]}
{"id": "C94", "title": "Exports of the collection of inventories", "statement": "The XML of a collection of inventories reads as one inventory of its name with the textgroups of all its inventories. Its DTS document describes the collection, with the inventories as members, when there are two or more, and the inventory itself, with its textgroups as members, when there is one.", "quantifier": "all collections of inventories that XML can write, with distinct textgroups", "why_tests_cant": "It ranges over all collections.", "anchors": ["MyCapytain/resources/prototypes/cts/inventory.py::CtsTextInventoryCollection.__export__"]}
{"id": "C95", "title": "Reading a text from beginning to end", "statement": "A reader who starts at a unit of a local text and follows nextId gets every unit of that level from there on, each once and in order, and stops after the last; with prevId backwards. From the first unit on no text is lost: but for spaces, the plain texts of the passages put one after the other are the plain text of the document, when all its text stands in units of the level and no unit contains another; the same with ranges of n units, when not exactly one unit is left for the last range. The text of a range is that of its units. Asking for a deeper level under each reference of a level gives the listing of the deeper level.", "quantifier": "all texts with a citation scheme and distinct identifiers, all starting units, levels, sizes of ranges, separators and excluded elements", "why_tests_cant": "It is about sequences of calls of any length on all texts.", "anchors": ["MyCapytain/resources/texts/local/capitains/cts.py::CapitainsCtsPassage.nextId", "MyCapytain/resources/texts/local/capitains/cts.py::_SharedMethods.getTextualNode", "MyCapytain/resources/texts/local/capitains/cts.py::_SharedMethods.getValidReff", "MyCapytain/resources/texts/base/tei.py::TeiResource.__export__"]}
{"id": "C96", "title": "Merging collections and sharing", "statement": "Merging a textgroup into another one with the same URN copies what comes in. Afterwards the two have no work or text in common, unless they had before; the textgroup merged into is still the same object with the same parent and still has its works, every other object that existed keeps its attributes, and what it states is what it stated, except that works present in both name the textgroup as parent. Works and texts that come in state what their originals stated, and have the merged textgroup and its works as parents. A deep copy of a collection is seen as the collection is, and shares nothing with it. Merging a work into another one does not copy: the texts become texts of this work, as the same objects, and nothing else changes.", "quantifier": "all sets of collections that hold together, with any sharing of graphs and any number of works and texts, all pairs of textgroups and works", "why_tests_cant": "It is about which objects are shared, over all shapes of collections.", "anchors": ["MyCapytain/resources/prototypes/cts/inventory.py::CtsTextgroupMetadata.update", "MyCapytain/resources/prototypes/cts/inventory.py::CtsWorkMetadata.update", "MyCapytain/resources/prototypes/metadata.py::Collection.parent"]}
{"id": "C97", "title": "Remote and local reading agree", "statement": "When an endpoint serves a document, a text read through the endpoint gives what the local text of the document gives: the same references of every level, in all of the text and inside a unit, in the same order; for every unit, named by a string, a list, a reference or a URN, a passage with the same element, the same plain text, the same siblings and the same units inside; the same passages to a reader who goes on with the next identifier; the same unit after any sequence of steps; the same plain text of all of the text; and the same nested dictionary when the endpoint declares the scheme with the text. The requests sent are one for each passage and list.", "quantifier": "all documents with any scheme, all endpoints that serve them, with or without siblings in the replies, all levels and units, all exclusions that spare the envelope of replies", "why_tests_cant": "Agreement of two implementations is over all documents, units and endpoints; tests compare neither.", "anchors": ["MyCapytain/resources/texts/remote/cts.py::_SharedMethod.getTextualNode", "MyCapytain/resources/texts/remote/cts.py::_SharedMethod.getReffs", "MyCapytain/resources/texts/remote/cts.py::CtsText.export", "MyCapytain/resources/texts/base/tei.py::TeiResource.__export__", "MyCapytain/resources/texts/local/capitains/cts.py::_SharedMethods.getTextualNode"]}
{"id": "C98", "title": "Two resolvers for the same texts", "statement": "When texts lie in a corpus folder and are served by a CTS endpoint, the resolver of the folder and the resolver of the endpoint are interchangeable: for every unit getTextualNode gives passages with the same URN, element, plain text and siblings, whatever options are given; getSiblings gives the same siblings; getReffs lists the same references in the same order. A program that calls these methods any number of times, with references that it was given before and levels of the texts or below a reference, ends without an error and with the same result, whichever resolver it is given.", "quantifier": "all libraries, all documents in which every unit above the last level has units of the lower levels in it, all endpoints that serve them with GetPassage, GetPassagePlus, GetValidReff and GetPrevNextUrn, all programs that find their way by what they are told, all options", "why_tests_cant": "Programs are unbounded sequences of calls that depend on earlier answers; no test compares the two resolvers.", "anchors": ["MyCapytain/resolvers/cts/api.py::HttpCtsResolver.getTextualNode", "MyCapytain/resolvers/cts/api.py::HttpCtsResolver.getSiblings", "MyCapytain/resolvers/cts/api.py::HttpCtsResolver.getReffs", "MyCapytain/resolvers/cts/local.py::CtsCapitainsLocalResolver.getTextualNode", "MyCapytain/resolvers/cts/local.py::CtsCapitainsLocalResolver.getSiblings", "MyCapytain/resolvers/cts/local.py::CtsCapitainsLocalResolver.getReffs"]}
{"id": "C99", "title": "The library of a resolver as objects", "statement": "When the resolver takes a textgroup that it read into its library, every member of the library afterwards has as its parent the collection that it is a member of, and the identifier of a textgroup or work gives that very object. The text objects of the library are those that were read, not copies: each work has the text objects of the last textgroup that describes them, and those that were there before and are not described. No object is altered but for who holds it; textgroups that were read and not yet taken are untouched; textgroups and works that the library has stay in it as the same objects; a new textgroup is itself put in the inventory that the last accepting filter names. This holds after any number of textgroups.", "quantifier": "all libraries, all sequences of textgroups that were read, with any works and texts, all lists of filters that look at the textgroup they are given", "why_tests_cant": "Sequences of textgroups are unbounded and the outcome depends on sharing of objects between collections; tests compare identifiers only.", "anchors": ["MyCapytain/resolvers/cts/local.py::CtsCapitainsLocalResolver._dispatch", "MyCapytain/resolvers/cts/local.py::CtsCapitainsLocalResolver.parse", "MyCapytain/resolvers/utils.py::CollectionDispatcher.dispatch", "MyCapytain/resources/prototypes/metadata.py::Collection.__getitem__", "MyCapytain/resources/prototypes/metadata.py::Collection.__contains__"]}
{"id": "C100", "title": "Reading a text through a DTS endpoint agrees with reading the document", "statement": "For a DTS endpoint that serves a document, the resolver lists for every level the references that the local text lists, in the same order, however the endpoint splits the list into pages; opening a unit by a reference or by a string makes one request and gives a document with the element, the plain text and the siblings of the local passage; the children of a document are the local passages of the next level in it; a reader who opens a unit and goes on with next reads the local passages to the end of the text, with one request each, and loses no text; a reader who goes back with prev reads the local passages back to the beginning; a reader who asks for the references of a level and opens each reads the local passages. Departures: a level or unit with a single reference, where the reader gets the passage and then all of the text, and the nested export, which asks for passages under names that no passage has.", "quantifier": "all documents and citation schemes that fit, all endpoints that serve them, with any split into pages and any envelope around passages, all levels, units and exclusions, all histories of requests before", "why_tests_cant": "Documents, depths, pages and the length of a reading are unbounded, and the agreement is between two implementations; tests look at a few recorded replies.", "anchors": ["MyCapytain/resolvers/dts/api_v1.py::HttpDtsResolver.getTextualNode", "MyCapytain/resolvers/dts/api_v1.py::HttpDtsResolver.getReffs", "MyCapytain/resources/texts/remote/dts/_resolver_v1.py::DtsResolverDocument", "MyCapytain/resources/texts/base/tei.py::TeiResource.__export__", "MyCapytain/resources/prototypes/text.py::InteractiveTextualNode", "MyCapytain/resources/texts/local/capitains/cts.py::_SharedMethods"]}
{"id": "C101", "title": "Browsing the collections of a DTS endpoint shows its hierarchy and asks for each listing once", "statement": "When an endpoint offers a hierarchy of collections, getMetadata makes one request; whatever is then read of the collection in whatever order (members, descendants, readable descendants, whether an identifier is below it, the collection with an identifier) is what the hierarchy says, in its order, and an unknown identifier is refused; the requests are exactly those for the listings that had to be known so far, page by page and depth first, each once; once all was read it can be read again without the endpoint, whatever the endpoint then does. When the endpoint fails at times, a reading that needs a failing request ends with that failure, and every other reading gives what the hierarchy says, whatever failed before. The same holds for every member, which has the collection as its parent. Departures: replies whose members have members of their own cannot be parsed, members announced without items are never looked into, listing the members of a collection of which one page of several is known replaces the objects of that page, and reading the parents of a member adds the collection a second time.", "quantifier": "all finite hierarchies, of any depth and breadth, with any split of the listings into pages, all endpoints that offer them, all sequences of readings, all requests made before", "why_tests_cant": "Depth, breadth, pages and the sequence of readings are unbounded, and the number of requests depends on what was read before; tests read one recorded collection.", "anchors": ["MyCapytain/resources/collections/dts/_resolver.py::HttpResolverDtsCollection", "MyCapytain/resources/collections/dts/_resolver.py::PaginatedProxy", "MyCapytain/resources/collections/dts/_base.py::DtsCollection.parse", "MyCapytain/resources/prototypes/metadata.py::Collection", "MyCapytain/resolvers/dts/api_v1.py::HttpDtsResolver.getMetadata"]}
{"id": "C102", "title": "Reading a DTS endpoint that fails at times stops at the first failure, and collecting all that it offers gives all of it", "statement": "When requests to a DTS endpoint fail at times, listing references, opening a passage, going to its siblings, reading on or back through a text, reading the children of a passage and reading all passages of a level do exactly what they do without failures up to the first request that fails: this is the last request made and its failure is raised; no shortened or wrong result is given. A user who asks for a collection, for all readable ones below it and for the passages of a level of each of them gets the passages of the local documents in the order of the hierarchy, with each listing of collections requested once; when the endpoint fails at times the user gets the same or one of its failures.", "quantifier": "all endpoints, all sets of requests that fail and all failures, all references and levels, all requests made before; for collecting, all finite hierarchies and all families of documents that the endpoint serves", "why_tests_cant": "Which requests fail, how many pages and passages there are and how deep the hierarchy is are unbounded; tests have no failing replies.", "anchors": ["MyCapytain/resolvers/dts/api_v1.py::HttpDtsResolver", "MyCapytain/resources/texts/remote/dts/_resolver_v1.py::DtsResolverDocument", "MyCapytain/resources/prototypes/text.py::InteractiveTextualNode", "MyCapytain/retrievers/dts/__init__.py::HttpDtsRetriever.call", "MyCapytain/resources/collections/dts/_resolver.py::HttpResolverDtsCollection"]}
{"id": "C103", "title": "A remote CTS passage read over time from an endpoint that fails at times gives right answers or the failures", "statement": "A passage of a remote CTS text is read in any way any number of times (identifiers of its siblings, of its first, last and all children, the passages next, previous, above, first, last and all children), while the endpoint fails at times. Every reading gives what the same reading gives on the passage as it was when new with an endpoint that does not fail, or the failure of its last request, none before that having failed. Identifiers that were given are given again without a request, whatever happened in the meantime. A reader who asks for the next passage again whenever the endpoint failed gets the passages of the text in order without gaps or repetitions, and all of them if the endpoint works at as many times as there are passages.", "quantifier": "all passages as opened, all sequences of readings, all endpoints and all failures at each of the times, all texts", "why_tests_cant": "Histories of readings and the times at which an endpoint fails are unbounded; tests read once from replies that never fail.", "anchors": ["MyCapytain/resources/texts/remote/cts.py::CtsPassage", "MyCapytain/resources/texts/remote/cts.py::_SharedMethod", "MyCapytain/resources/prototypes/text.py::InteractiveTextualNode"]}
{"id": "C104", "title": "A remote CTS text asked over time from an endpoint that fails at times gives right answers or the failures", "statement": "A remote CTS text is asked for its label, for all its references, for references at a level, for passages with and without their label, and for exports, in any order and any number of times, while the endpoint, which has one citation scheme for the text, fails at times. Every answer is the one that the text would have given when new with an endpoint that does not fail, or the failure of the last request made for it, none before that having failed. The graph of metadata keeps what it said, and everything new in it was said in the label of a reply to a request that was made. A citation scheme, once known, stays unless a passage with its label is asked for, and then the label is not asked for again: all references cost one request for each level.", "quantifier": "all texts, all endpoints with one scheme for the text, all sequences of what is asked and all failures at each of the times", "why_tests_cant": "Histories and the times at which an endpoint fails are unbounded; tests ask new objects and replies that never fail.", "anchors": ["MyCapytain/resources/texts/remote/cts.py::CtsText", "MyCapytain/resources/texts/remote/cts.py::_SharedMethod", "MyCapytain/resources/texts/base/tei.py::TeiResource"]}
{"id": "C105", "title": "References, pages and parameters in addresses are read as they were meant, whatever their characters", "statement": "The names and values in the query of an address, coded in any way that the form coding of queries allows (any character as the percent-coded bytes of its UTF-8, in capitals or not, a space also as a plus, other characters as they are), are read back as they were: in the links of a DTS document, so that next, prev and collection name exactly the reference or range that the server meant, in the links of pages, and in the routes of an entry point.", "quantifier": "all texts of any characters, all ways of coding them, all lists of parameters and links", "why_tests_cant": "Characters, codings and their combinations are unbounded; tests use ASCII references without coded characters.", "anchors": ["MyCapytain/resources/texts/remote/dts/_resolver_v1.py::DtsResolverDocument.parse", "MyCapytain/resources/texts/remote/dts/_resolver_v1.py::DtsResolverDocument._dict_to_ref", "MyCapytain/common/utils/_http.py::parse_pagination", "MyCapytain/common/utils/_http.py::parse_uri"]}
{"id": "C106", "title": "Asking a local resolver for metadata leaves its library as it was, but for the languages of editions", "statement": "The collections that a local resolver makes for an answer have the identifiers of those of its library, and all of them speak from one graph. However often and with whatever identifiers metadata are asked for, also when the answer is an error: no statement of the graph is added or lost except languages and statements about a made-up inventory; the only languages that change are those of editions found, and they become those of their works; where editions already have the languages of their works nothing changes at all; and the metadata of a textgroup, work or text are, at any time, those that a first question would have got.", "quantifier": "all libraries with a graph that knows of them, all identifiers, all histories of questions, all orders of iteration over the graph", "why_tests_cant": "Side effects accumulate over unbounded histories of calls on shared state; tests make a new resolver and ask one question.", "anchors": ["MyCapytain/resolvers/cts/local.py::CtsCapitainsLocalResolver.getMetadata", "MyCapytain/resources/prototypes/cts/inventory.py::CtsTextMetadata.__init__", "MyCapytain/resources/prototypes/metadata.py::Collection.__init__", "MyCapytain/resources/prototypes/metadata.py::ResourceCollection.lang"]}
{"id": "C107", "title": "Texts and passages that remember their children and siblings answer as if they did not", "statement": "A text or a passage keeps the lists of children and siblings that it has computed. However often and in whatever order it is asked for children, siblings, next, previous, first and last, as identifiers or as passages, every answer and every error is that of an object that remembers nothing. If the document changes between questions, an answer lists the references of the document as it was at one of the times of asking, and passages are retrieved from the document as it is; identifiers once given stay the same for ever; errors are not remembered.", "quantifier": "all texts, passages, histories of questions and sequences of documents", "why_tests_cant": "Histories and changes of documents are unbounded; tests ask each property once or twice of one document.", "anchors": ["MyCapytain/resources/texts/local/capitains/cts.py::_SimplePassage.childIds", "MyCapytain/resources/texts/local/capitains/cts.py::_SimplePassage.siblingsId", "MyCapytain/resources/texts/local/capitains/cts.py::CapitainsCtsPassage.childIds", "MyCapytain/resources/texts/local/capitains/cts.py::CapitainsCtsPassage.siblingsId", "MyCapytain/resources/texts/local/capitains/cts.py::CapitainsCtsPassage.next", "MyCapytain/resources/prototypes/text.py::InteractiveTextualNode.childIds", "MyCapytain/resources/prototypes/text.py::InteractiveTextualNode.firstId"]}
{"id": "C108", "title": "A local resolver whose files change answers as one made anew", "statement": "A local resolver reads the metadata once and the file of a text whenever it is asked about it. Whatever files of texts are written, overwritten or removed after it was made, in any order with questions in between, every passage, list of references, pair of siblings and error that it gives is that of a resolver made at that moment from the same metadata. Changes to other files do not change the replies about a text, and only the last writing of its file counts.", "quantifier": "all metadata found in folders, contents of files, histories of writing, removing and asking, URNs and references", "why_tests_cant": "Histories of changes to files are unbounded; tests make one resolver over folders that never change.", "anchors": ["MyCapytain/resolvers/cts/local.py::CtsCapitainsLocalResolver.__getText__", "MyCapytain/resolvers/cts/local.py::CtsCapitainsLocalResolver.parse", "MyCapytain/resolvers/cts/local.py::CtsCapitainsLocalResolver._parse_text", "MyCapytain/resolvers/cts/local.py::CtsCapitainsLocalResolver.getTextualNode", "MyCapytain/resolvers/cts/local.py::CtsCapitainsLocalResolver.getSiblings", "MyCapytain/resolvers/cts/local.py::CtsCapitainsLocalResolver.getReffs"]}
{"id": "C109", "title": "Passages are copies", "statement": "Taking a passage of a local text changes no element that existed before, neither of the document nor of passages taken earlier, whether it succeeds or fails. The passage consists of new elements only. So whatever passages were taken and whatever a program did to their elements, the document is as it was, and every passage taken afterwards, or error, is the one that would have come first.", "quantifier": "all documents, paths of start and end, and histories of taking passages and changing elements in place", "why_tests_cant": "Elements move when they are appended elsewhere, so that sharing shows only in what is read later; histories of changes are unbounded.", "anchors": ["MyCapytain/common/utils/xml.py::copyNode", "MyCapytain/common/utils/xml.py::passageLoop", "MyCapytain/resources/texts/local/capitains/cts.py::_SharedMethods.getTextualNode", "MyCapytain/resources/texts/local/capitains/cts.py::_SharedMethods._getSimplePassage"]}
{"id": "C110", "title": "Comments in documents", "statement": "Comments and processing instructions in a document do not change its passages: the units are the same, a passage of one unit is the same, and a range is, with the comments taken out, the range of the document without comments. The one exception is an error: a range raises TypeError exactly when a comment stands between its start and its end directly inside an element that contains the start or the end.", "quantifier": "all documents with comments anywhere, and all pairs of paths", "why_tests_cant": "Where comments stand relative to the two ends of a range, at any depth, cannot be enumerated.", "anchors": ["MyCapytain/common/utils/xml.py::copyNode", "MyCapytain/common/utils/xml.py::passageLoop", "MyCapytain/common/utils/xml.py::xmliter", "MyCapytain/resources/texts/base/tei.py::TeiResource.__export__"]}
{"id": "C111", "title": "Several graphs", "statement": "After set_graph, objects made before keep their graph: every collection, text or metadata object belongs for good to the graph that was in force when it was made, what it answers (metadata, type, model, version) is what was said of its node in that graph and not erased there since, and nothing said through objects of another graph changes it, though their identifiers be the same. A text has a node of its own, and as long as no links are taken away nothing done to other objects, in the same graph either, changes its metadata.", "quantifier": "all programs of set_graph, making collections, texts and metadata, writing and erasing, in any order, over any graphs", "why_tests_cant": "Interleavings of programs over several graphs, with equal identifiers in them, cannot be enumerated.", "anchors": ["MyCapytain/common/constants.py::set_graph", "MyCapytain/common/constants.py::get_graph", "MyCapytain/common/metadata.py::Metadata", "MyCapytain/resources/prototypes/metadata.py::Collection", "MyCapytain/resources/prototypes/text.py::TextualElement"]}
{"id": "C112", "title": "Copies of references", "statement": "Copying (copy, deepcopy, pickle) a CTS reference however made gives a reference with the same start, end and text, whose start and end are passage identifiers and not plain strings; a copied set of CTS references holds the same references in the same order with the same level.", "quantifier": "all CTS references and everything CtsReference makes of its arguments; all sets of them", "why_tests_cant": "References of every text and shape, and sets of every size, cannot be enumerated.", "anchors": ["MyCapytain/common/reference/_base.py::BaseReference.__new__", "MyCapytain/common/reference/_base.py::BaseReferenceSet.__new__", "MyCapytain/common/reference/_capitains_cts.py::CtsReference.__new__", "MyCapytain/common/reference/_dts_1.py::DtsReference.__new__"]}
{"id": "C113", "title": "References as keys", "statement": "CTS references can be keys of dictionaries and elements of sets: two are equal exactly when start and end are the same, however they were written; equal ones have equal hashes; after any assignments and deletions a reference finds what was last stored under its start and end and nothing else; a set of references has each of them once; deleting what is there removes it and deleting what is not raises KeyError. DTS references are equal when start, end and type are, and equal no plain tuple.", "quantifier": "all references, all programs of assignments and deletions on a dictionary, all hash functions of strings and tuples", "why_tests_cant": "Whether equality and hashes agree, and what a dictionary then answers, must hold for all references, all histories of the dictionary and all hash seeds.", "anchors": ["MyCapytain/common/reference/_base.py::BaseReference", "MyCapytain/common/reference/_capitains_cts.py::CtsReference", "MyCapytain/common/reference/_capitains_cts.py::CtsSinglePassageId", "MyCapytain/common/reference/_capitains_cts.py::URN.__eq__", "MyCapytain/common/reference/_dts_1.py::DtsReference.__eq__", "MyCapytain/resources/prototypes/cts/inventory.py::PrototypeCtsCollection.__eq__"]}
{"id": "C114", "title": "Threads that share a remote client", "statement": "When several threads use one DTS retriever, list the members of one DTS collection or ask one remote CTS passage for its neighbours, then whatever the interleaving and whichever requests fail, a thread that gets an answer gets the right one (the routes of the entry point; all members, in order, each once; the neighbours that the endpoint tells), it asks for the entry point or the neighbours at most once and for no more pages than there are, it ends within a bound that does not depend on the other threads, and threads that begin after one has its answer request nothing.", "quantifier": "all schedules of any number of threads, any requests failing, all listings of any number of pages that carry a view, all mixtures of prevId, nextId and siblingsId", "why_tests_cant": "Schedules and failures cannot be enumerated, and tests run in one thread.", "anchors": ["MyCapytain/retrievers/dts/__init__.py::HttpDtsRetriever.routes", "MyCapytain/resources/collections/dts/_resolver.py::PaginatedProxy", "MyCapytain/resources/collections/dts/_resolver.py::HttpResolverDtsCollection._parse_paginated_members", "MyCapytain/resources/collections/dts/_resolver.py::HttpResolverDtsCollection.children", "MyCapytain/resources/collections/dts/_resolver.py::HttpResolverDtsCollection.parse_member", "MyCapytain/resources/texts/remote/cts.py::CtsPassage.prevId", "MyCapytain/resources/texts/remote/cts.py::CtsPassage.nextId", "MyCapytain/resources/texts/remote/cts.py::CtsPassage.siblingsId"]}
{"id": "C115", "title": "Children one by one", "statement": "Going through node.children gives the first children in the order of their identifiers, none left out and none twice, however many generators are used in turns and whichever requests fail; a loop that ends without an error has had all of them; generators do not disturb each other; the identifiers are asked of the source until it tells them and not again.", "quantifier": "all lists of children, all programs that use any number of generators in turns and look at the identifiers, any requests failing", "why_tests_cant": "Interleavings of generators and failures in the middle of a loop cannot be enumerated.", "anchors": ["MyCapytain/resources/prototypes/text.py::InteractiveTextualNode.children", "MyCapytain/resources/prototypes/text.py::InteractiveTextualNode.childIds"]}
{"id": "C116", "title": "Copies of citation schemes", "statement": "copy.deepcopy of a citation (and pickling it) ends, gives new objects for all citations it leads to (children and roots), one for each, with the same names, declarations and corresponding links; iterating over the copy and matching references with it shows what the original shows, also from a level that is not the root; later changes to either do not show in the other; copy.copy gives a new citation over the same children.", "quantifier": "all citation schemes as graphs of objects of any size and shape, including cycles through roots; all later changes", "why_tests_cant": "Object graphs with cycles, sharing and later changes cannot be enumerated.", "anchors": ["MyCapytain/common/reference/_base.py::BaseCitationSet.__getstate__", "MyCapytain/common/reference/_base.py::BaseCitationSet.__setstate__", "MyCapytain/common/reference/_capitains_cts.py::Citation"]}
{"id": "C117", "title": "Copies of URNs", "statement": "A copy of a URN says what the original says, and making it changes none. In a program that copies URNs deeply only, each URN is at any time what it was with what was assigned to it since, whatever was done to the others; as long as nothing is assigned, plain copies do no harm either.", "quantifier": "all programs that make any number of copies of URNs and copies of copies, assign to any of them and read their text", "why_tests_cant": "Aliasing shows only in particular orders of copying, assigning and reading.", "anchors": ["MyCapytain/common/reference/_capitains_cts.py::URN"]}
{"id": "C118", "title": "Whose URN is whose", "statement": "In a program that gives URNs as strings, each text and passage has a URN object of its own: whatever is assigned to the URN of a passage or of another text, a text keeps identifier, reference and the components and text of its URN, and the passages it gives later are named as before.", "quantifier": "all programs that make texts, ask them and their passages for passages, and assign to URNs in any order", "why_tests_cant": "Aliasing shows only in particular orders of making, asking and assigning.", "anchors": ["MyCapytain/resources/prototypes/cts/text.py::PrototypeCtsNode", "MyCapytain/resources/texts/local/capitains/cts.py::_make_passage_kwargs", "MyCapytain/resources/texts/local/capitains/cts.py::_SharedMethods.getTextualNode", "MyCapytain/resources/texts/local/capitains/cts.py::_SharedMethods._getSimplePassage"]}
