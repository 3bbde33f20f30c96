{"id": "C01", "title": "Prefixed names survive print and parse", "statement": "If a string is accepted as a prefixed (local) name then printing the parsed value gives exactly the same string, and parsing the printed form of any value the parser can produce gives that value back.", "quantifier": "every string; every namespace and name accepted by their own parsers", "why_tests_cant": "Unicode names form an unbounded domain; tests try a handful of ASCII names.", "anchors": ["rdftk_iri/src/pname.rs LocalName::from_str, Display", "rdftk_iri/src/pname.rs Namespace::from_str", "rdftk_iri/src/pname.rs Name::from_str"]}
{"id": "C02", "title": "A prefixed name has one reading", "statement": "A string is accepted as a prefixed name exactly when it is a valid namespace (ending at the first ':') followed by a valid name; the namespace and name are determined uniquely by the string, and a colon-free or empty string is rejected with the documented error.", "quantifier": "every string", "why_tests_cant": "Uniqueness of decomposition is a statement about all splits of all strings.", "anchors": ["rdftk_iri/src/pname.rs LocalName::from_str", "rdftk_iri/src/error.rs Error"]}
{"id": "C03", "title": "Name and namespace validators match the SPARQL/Turtle grammar", "statement": "The name validator accepts exactly the strings of the PN_LOCAL production without ':' and escapes, and the namespace validator exactly PNAME_NS (PN_PREFIX? ':').", "quantifier": "every string", "why_tests_cant": "The grammar ranges over more than a million code points at each position.", "anchors": ["rdftk_iri/src/pname.rs Namespace::from_str", "rdftk_iri/src/pname.rs Name::from_str", "rdftk_iri/src/pname.rs is_pn_chars_base"]}
{"id": "C04", "title": "Namespaces can be named with or without the colon", "statement": "Building a namespace from a bare prefix or from the prefix with a trailing ':' gives the same value; asking for its bare name returns that prefix; it is the default namespace exactly when the prefix is empty; qualifying a name with it prints prefix, ':' and name.", "quantifier": "every prefix string and every name", "why_tests_cant": "Equality of two construction paths over all strings.", "anchors": ["rdftk_iri/src/pname.rs Namespace::new_named", "rdftk_iri/src/pname.rs Namespace::name_string", "rdftk_iri/src/pname.rs Namespace::is_default", "rdftk_iri/src/pname.rs Namespace::qualify"]}
{"id": "C05", "title": "Splitting an IRI and making the name again restores the IRI", "statement": "If an IRI splits into a namespace IRI and a name, then making that name in that namespace gives the original IRI.", "quantifier": "every IRI", "why_tests_cant": "Depends on which of path, query and fragment are present and on their content; combinations are unbounded.", "anchors": ["rdftk_iri/src/iri.rs Iri::split", "rdftk_iri/src/iri.rs Iri::make_name", "rdftk_iri/src/iri.rs Iri::with_new_path", "rdftk_iri/src/iri.rs Iri::with_new_fragment"]}
{"id": "C06", "title": "Making a name and splitting returns the namespace and the name", "statement": "If an IRI looks like a namespace and a name is made in it, then the resulting IRI splits into that namespace and that name.", "quantifier": "every namespace IRI and every name", "why_tests_cant": "Name characters include all of Unicode, and the percent-encoding applied on the way only shows outside ASCII.", "anchors": ["rdftk_iri/src/iri.rs Iri::make_name", "rdftk_iri/src/iri.rs Iri::split", "rdftk_iri/src/iri.rs Iri::looks_like_namespace"]}
{"id": "C07", "title": "Namespace-looking IRIs accept names and do not themselves split", "statement": "Every IRI that looks like a namespace accepts a name, and it has no namespace/name split of its own; the namespace part of a split looks like a namespace.", "quantifier": "every IRI", "why_tests_cant": "Three predicates over arbitrary component combinations have to agree.", "anchors": ["rdftk_iri/src/iri.rs Iri::looks_like_namespace", "rdftk_iri/src/iri.rs Iri::split", "rdftk_iri/src/iri.rs Iri::make_name"]}
{"id": "C08", "title": "Splitting an IRI never panics", "statement": "Asking any IRI for its split, namespace or name returns normally.", "quantifier": "every IRI, including opaque ones such as urn: and mailto:", "why_tests_cant": "A panic hides in the one class of IRIs without path segments.", "anchors": ["rdftk_iri/src/iri.rs Iri::split", "rdftk_iri/src/iri.rs Iri::namespace", "rdftk_iri/src/iri.rs Iri::name"]}
{"id": "C09", "title": "Printing and parsing an IRI gives the same IRI", "statement": "Parsing either the angle-bracketed display form or the bare form of an IRI gives that IRI back.", "quantifier": "every IRI value", "why_tests_cant": "All IRIs, not a sample.", "anchors": ["rdftk_iri/src/iri.rs Iri Display", "rdftk_iri/src/iri.rs Iri::from_str"]}
{"id": "C10", "title": "A prefix map is always one-to-one", "statement": "After any sequence of operations, no two prefixes of a map stand for the same IRI and no prefix stands for two IRIs; looking up a prefix gives an IRI exactly when looking up that IRI gives the prefix.", "quantifier": "every sequence of insert, remove, clear, set-default and remove-default, from every constructor", "why_tests_cant": "Eviction on both sides interacts across histories of any length.", "anchors": ["rdftk_iri/src/map.rs IriPrefixMap::insert", "rdftk_iri/src/map.rs IriPrefixMap::remove", "rdftk_iri/src/map.rs IriPrefixMap::clear", "rdftk_iri/src/map.rs IriPrefixMap::set_default_namespace"]}
{"id": "C11", "title": "A prefix map returns the last mapping given", "statement": "After inserting a mapping, that prefix gives that IRI; every other mapping is unchanged unless it used the same prefix or the same IRI, in which case it is gone. Removing a prefix removes exactly its mapping.", "quantifier": "every map reached by operations, every prefix and IRI", "why_tests_cant": "Covers interaction of arbitrary histories.", "anchors": ["rdftk_iri/src/map.rs IriPrefixMap::insert", "rdftk_iri/src/map.rs IriPrefixMap::get_namespace", "rdftk_iri/src/map.rs IriPrefixMap::get_prefix", "rdftk_iri/src/map.rs IriPrefixMap::remove"]}
{"id": "C12", "title": "Compressing an IRI loses nothing", "statement": "If a prefix map compresses an IRI to a prefixed name, expanding that prefixed name gives the IRI back.", "quantifier": "every reachable prefix map and every IRI", "why_tests_cant": "Depends on the bijection and on the split/make-name law at once.", "anchors": ["rdftk_iri/src/map.rs IriPrefixMap::compress", "rdftk_iri/src/map.rs IriPrefixMap::expand"]}
{"id": "C13", "title": "Expanding a prefixed name can be undone", "statement": "If a prefixed name expands, compressing the result gives the prefixed name back.", "quantifier": "every reachable prefix map and every prefixed name", "why_tests_cant": "Fails only for particular shapes of mapped IRI or non-ASCII names.", "anchors": ["rdftk_iri/src/map.rs IriPrefixMap::expand", "rdftk_iri/src/map.rs IriPrefixMap::compress"]}
{"id": "C14", "title": "Compress falls back to the full IRI and never invents a prefix", "statement": "Compressing to a reference gives either the unchanged IRI or a prefixed name whose prefix is in the map; it gives the unchanged IRI exactly when there is no split or no prefix for the namespace part.", "quantifier": "every prefix map and every IRI", "why_tests_cant": "All maps and IRIs.", "anchors": ["rdftk_iri/src/map.rs IriPrefixMap::compress", "rdftk_iri/src/map.rs IriPrefixMap::compress_to_iriref"]}
{"id": "C15", "title": "Comparison of nodes, literals and statements is a total order", "statement": "Comparing subjects, objects, literals, data types, collections and statements is reflexive, antisymmetric, transitive and total, and two values compare equal exactly when they are equal.", "quantifier": "all values, with statements and collections nested to any depth", "why_tests_cant": "Nesting is unbounded; transitivity needs all triples of values.", "anchors": ["rdftk_core/src/model/statement.rs Ord for Statement", "rdftk_core/src/model/statement/subject.rs Ord for SubjectNode", "rdftk_core/src/model/statement/object.rs Ord for ObjectNode", "rdftk_core/src/model/literal.rs Ord for Literal", "rdftk_core/src/model/statement/collection.rs Collection"]}
{"id": "C16", "title": "Subject and object conversions are inverse", "statement": "Turning a subject into an object and back gives the same subject; an object turns into a subject exactly when it is neither a literal nor a collection, and then turning it back gives the same object. The kind predicates agree with the kind accessors and exactly one kind holds.", "quantifier": "all subjects and objects", "why_tests_cant": "All nested values.", "anchors": ["rdftk_core/src/model/statement/subject.rs SubjectNode::to_object", "rdftk_core/src/model/statement/object.rs ObjectNode::to_subject"]}
{"id": "C17", "title": "String escaping is reversible and safe", "statement": "The escaped form of a string contains no unescaped quote, no line break, and different strings have different escaped forms; removing the escapes gives the string back; strings with nothing to escape are unchanged.", "quantifier": "every string", "why_tests_cant": "Injectivity is a claim about all pairs of strings.", "anchors": ["rdftk_core/src/model/literal.rs escape_string", "rdftk_core/src/model/literal.rs Literal::plain"]}
{"id": "C18", "title": "A literal keeps the text it was built from", "statement": "The lexical form of a literal built from a string, with or without data type or language, is that string, and the literal compares equal to the string when plain.", "quantifier": "every string, data type and language tag", "why_tests_cant": "Fails only for characters the constructor escapes.", "anchors": ["rdftk_core/src/model/literal.rs Literal::plain", "rdftk_core/src/model/literal.rs Literal::with_data_type", "rdftk_core/src/model/literal.rs Literal::with_language", "rdftk_core/src/model/literal.rs PartialEq<String>"]}
{"id": "C19", "title": "Literals of integers and booleans compare like the values", "statement": "A literal built from an integer or boolean compares equal to a value of the same type exactly when it is that value, and literals of different values differ.", "quantifier": "every integer of each width, both booleans", "why_tests_cant": "2^64 values; tests try a few.", "anchors": ["rdftk_core/src/model/literal.rs From<i64>", "rdftk_core/src/model/literal.rs PartialEq<i64>", "rdftk_core/src/model/literal.rs From<bool>"]}
{"id": "C20", "title": "Hex encoding of bytes can be decoded", "statement": "A literal built from bytes in hex form converts back to the same bytes.", "quantifier": "every byte string", "why_tests_cant": "The bug shows for all lengths but one.", "anchors": ["rdftk_core/src/model/literal.rs hex_encode", "rdftk_core/src/model/literal.rs hex_decode", "rdftk_core/src/model/literal.rs Literal::hex_encoded", "rdftk_core/src/model/literal.rs TryFrom<Literal> for Vec<u8>"]}
{"id": "C21", "title": "Data types survive conversion to an IRI and back", "statement": "Converting a data type to its IRI and back gives the same data type.", "quantifier": "every data type, and every IRI", "why_tests_cant": "Enumerates the whole type together with all other IRIs.", "anchors": ["rdftk_core/src/model/literal.rs DataType::as_iri", "rdftk_core/src/model/literal.rs From<Iri> for DataType"]}
{"id": "C22", "title": "Durations compare like the values", "statement": "A literal built from a duration compares equal to that duration.", "quantifier": "every duration", "why_tests_cant": "The comparison never succeeds, a fact over all durations.", "anchors": ["rdftk_core/src/model/literal.rs From<Duration>", "rdftk_core/src/model/literal.rs PartialEq<Duration>"]}
{"id": "C23", "title": "Printed literals say everything about the literal", "statement": "Printing a literal in the explicit (alternate) form distinguishes any two literals whose lexical forms are properly escaped: the same text means the same lexical form, data type IRI and language.", "quantifier": "every pair of literals", "why_tests_cant": "Ambiguity would need a particular pair.", "anchors": ["rdftk_core/src/model/literal.rs Display for Literal"]}
{"id": "C24", "title": "A graph is a bag or a set of statements", "statement": "After any sequence of insert, extend, merge, remove, clear and with-statements, an ordinary graph holds each statement as often as it was added since it was last removed, and a unique graph holds it once if at all; emptiness, length and containment report exactly that.", "quantifier": "every operation sequence on both kinds of graph", "why_tests_cant": "Histories of any length.", "anchors": ["rdftk_core/src/model/graph.rs Graph::insert", "rdftk_core/src/model/graph.rs Graph::extend", "rdftk_core/src/model/graph.rs Graph::merge", "rdftk_core/src/model/graph.rs Graph::remove", "rdftk_core/src/model/graph.rs Graph::contains", "rdftk_core/src/model/graph.rs Graph::len"]}
{"id": "C25", "title": "A unique graph never holds a duplicate", "statement": "No sequence of operations makes a unique graph hold the same statement twice, and no operation turns it into a non-unique graph.", "quantifier": "every operation sequence including dedup and remove-all-for", "why_tests_cant": "Invariant over all histories.", "anchors": ["rdftk_core/src/model/graph.rs Graph::unique", "rdftk_core/src/model/graph.rs Statements::insert", "rdftk_core/src/model/graph.rs Graph::with_statements"]}
{"id": "C26", "title": "Removing duplicates keeps one of each", "statement": "After dedup the graph contains the same statements as before, each exactly once; the returned list holds exactly the surplus copies; doing it again returns nothing and changes nothing.", "quantifier": "every graph", "why_tests_cant": "Multiplicities are unbounded.", "anchors": ["rdftk_core/src/model/graph.rs Graph::dedup"]}
{"id": "C27", "title": "Removing all statements for a subject", "statement": "Removing all statements for a subject leaves exactly the statements with other subjects and returns exactly those with that subject.", "quantifier": "every graph and subject", "why_tests_cant": "A swapped branch is invisible when the graph has only one subject.", "anchors": ["rdftk_core/src/model/graph.rs Graph::remove_all_for"]}
{"id": "C28", "title": "Pattern matching with wildcards", "statement": "Matching with a subject, predicate and object, each optional, returns exactly the statements that agree with every component that is given.", "quantifier": "every graph and every pattern", "why_tests_cant": "Eight combinations over all graphs.", "anchors": ["rdftk_core/src/model/graph.rs Graph::matches", "rdftk_core/src/model/graph.rs Graph::contains"]}
{"id": "C29", "title": "Graph projections are exact", "statement": "The subjects, node subjects, blank subjects, predicates, objects, predicates for a subject and objects for a subject and predicate are exactly the components of the statements held, without repetition.", "quantifier": "every graph", "why_tests_cant": "Set equality over all graphs.", "anchors": ["rdftk_core/src/model/graph.rs Graph::subjects", "rdftk_core/src/model/graph.rs Graph::predicates_for", "rdftk_core/src/model/graph.rs Graph::objects_for", "rdftk_core/src/model/graph.rs Graph::blank_node_subjects"]}
{"id": "C30", "title": "A graph reports the features it has", "statement": "A graph reports support for duplicate statements exactly when inserting a statement twice makes its length grow twice.", "quantifier": "every graph", "why_tests_cant": "Ties a flag to behaviour over all graphs.", "anchors": ["rdftk_core/src/model/graph.rs supports_feature for Graph", "rdftk_core/src/model/features.rs FEATURE_GRAPH_DUPLICATES"]}
{"id": "C31", "title": "A data set is a map from name to graph", "statement": "After any sequence of insert, extend, remove and clear, the graph found under a name is the last graph inserted with that name and not since removed, each name occurs once, and every graph is stored under its own name.", "quantifier": "every operation sequence", "why_tests_cant": "Histories of any length.", "anchors": ["rdftk_core/src/model/data_set.rs DataSet::insert", "rdftk_core/src/model/data_set.rs DataSet::extend", "rdftk_core/src/model/data_set.rs DataSet::remove", "rdftk_core/src/model/data_set.rs DataSet::graph"]}
{"id": "C32", "title": "A collection expands to a well formed RDF list", "statement": "Expanding a collection gives a head node and statements from which following first and rest to nil reads back exactly the items in order, with three statements per item and no cell used twice.", "quantifier": "every collection", "why_tests_cant": "Lists of any length.", "anchors": ["rdftk_core/src/model/statement/collection.rs Collection::reify"]}
{"id": "C33", "title": "A reified statement can be read back", "statement": "Reifying a statement gives a fresh node and statements from which the statement, including statements nested in it to any depth, can be read back.", "quantifier": "every statement without collections in it, nested to any depth", "why_tests_cant": "Depth is unbounded.", "anchors": ["rdftk_core/src/model/statement.rs Statement::reify"]}
{"id": "C34", "title": "A simplified graph has only simple statements", "statement": "Simplifying a graph yields statements whose subject is an IRI or blank node and whose object is an IRI, blank node or literal; simple statements are kept unchanged and in order; the name is kept.", "quantifier": "every graph", "why_tests_cant": "Depends on nesting and on both ends of a statement.", "anchors": ["rdftk_core/src/model/graph.rs Graph::simplify"]}
{"id": "C35", "title": "Skolemizing replaces every blank node consistently", "statement": "After skolemizing there are no blank nodes; each blank node is replaced everywhere by one IRI, different blank nodes by different IRIs; everything else, including name and prefixes, is kept.", "quantifier": "every graph and every stream of fresh identifiers", "why_tests_cant": "Consistency is across all statements.", "anchors": ["rdftk_core/src/model/graph.rs Graph::skolemize", "rdftk_iri/src/iri.rs Iri::genid"]}
{"id": "C36", "title": "A resource builder produces the statements it was told", "statement": "Turning a resource into statements gives, for each predicate and value added, a statement from the resource's subject to that value, plus the statements of nested resources; containers give one node with its kind and numbered members starting from 1.", "quantifier": "every resource, nested to any depth", "why_tests_cant": "Nested builders of any depth.", "anchors": ["rdftk_core/src/model/resource.rs From<Resource> for Vec<Statement>", "rdftk_core/src/model/resource.rs flatten", "rdftk_names/src/rdf.rs member"]}
{"id": "C37", "title": "Blank node labels are faithful", "statement": "A blank node label that is accepted with the '_:' prefix denotes the same node as without it, prints as '_:' and the label, and generated nodes differ from each other and from all nodes named by the user.", "quantifier": "every label and every number of generated nodes", "why_tests_cant": "Collision needs a particular label.", "anchors": ["rdftk_core/src/model/statement/bnode.rs BlankNode::from_str", "rdftk_core/src/model/statement/bnode.rs BlankNode::generate"]}
{"id": "C38", "title": "N-Triples written can be read back", "statement": "Writing a graph as N-Triples and reading the text gives a graph with the same set of statements.", "quantifier": "every graph with simple statements, every order in which the sets are visited", "why_tests_cant": "Requires all texts, types and languages.", "anchors": ["rdftk_io/src/nt/writer.rs", "rdftk_io/src/common/parser/ntriples.rs", "rdftk_io/src/common/common.pest"]}
{"id": "C39", "title": "Reading N-Triples never panics", "statement": "Reading any text as N-Triples returns a graph or an error.", "quantifier": "every text", "why_tests_cant": "The panic needs an escape that denotes no character.", "anchors": ["rdftk_io/src/common/parser/ntriples.rs parse_doc", "rdftk_io/src/common/parser/ntriples.rs unescape_uchar"]}
{"id": "C40", "title": "N-Triples output lists each statement once", "statement": "The text written for a graph with simple statements is one line for each different statement, in an order that may vary, and nothing else.", "quantifier": "every graph and visiting order", "why_tests_cant": "Triple nested loops over projections must neither invent nor drop combinations.", "anchors": ["rdftk_io/src/nt/writer.rs", "rdftk_core/src/model/graph.rs Graph::objects_for"]}
{"id": "C41", "title": "N-Quads written can be read back", "statement": "Writing a data set as N-Quads and reading the text gives a data set with the same non-empty graphs under the same names, each with the same set of statements.", "quantifier": "every data set with simple statements, every visiting order", "why_tests_cant": "All graph names and contents.", "anchors": ["rdftk_io/src/nq/writer.rs", "rdftk_io/src/common/parser/nquads.rs"]}
{"id": "C42", "title": "Layout in N-Triples does not matter", "statement": "Adding white space, blank lines or comments between the terms of an N-Triples document does not change what is read.", "quantifier": "every document made of valid terms and every layout between them", "why_tests_cant": "Layouts are unbounded.", "anchors": ["rdftk_io/src/common/common.pest WHITESPACE, COMMENT", "rdftk_io/src/common/parser/ntriples.rs"]}
{"id": "C43", "title": "RDF/JSON written can be read back", "statement": "Writing a graph as RDF/JSON and reading it gives a graph with the same set of statements.", "quantifier": "every graph with simple statements", "why_tests_cant": "All term combinations.", "anchors": ["rdftk_io/src/json/writer.rs", "rdftk_io/src/json/reader.rs"]}
{"id": "C44", "title": "Unicode escapes in IRIs are decoded", "statement": "Reading an IRI with numeric escapes gives the IRI in which each escape is replaced by the character it names and all else is unchanged.", "quantifier": "every text", "why_tests_cant": "Positions and numbers of escapes are unbounded.", "anchors": ["rdftk_io/src/common/parser/ntriples.rs unescape_iri"]}
{"id": "C45", "title": "TriG output holds the statements", "statement": "The TriG text written for a data set depends on the statements in its graphs.", "quantifier": "every data set", "why_tests_cant": "A statement about all data sets.", "anchors": ["rdftk_io/src/trig/writer.rs"]}
{"id": "C46", "title": "Compressed IRIs in Turtle expand to the IRI", "statement": "When Turtle output writes an IRI as prefix:name or as a reference relative to the base, reading that form with the written prefixes and base gives the IRI.", "quantifier": "every IRI, base, option set and prefix map", "why_tests_cant": "Interactions of base and prefixes over all IRIs.", "anchors": ["rdftk_io/src/turtle/writer.rs compress_iri", "rdftk_io/src/turtle/writer.rs write_prefixes"]}
{"id": "C47", "title": "Predicates are written in group order, none lost", "statement": "Grouping predicates for Turtle output yields every predicate exactly once, type predicates first, then labels, then others, stable within a group.", "quantifier": "every list of predicates", "why_tests_cant": "All permutations.", "anchors": ["rdftk_io/src/turtle/writer.rs PredicateGroupOrdering"]}
{"id": "C48", "title": "Turtle output names the predicate it writes", "statement": "The verb written for a predicate denotes that predicate; in particular 'a' or rdf:type is written only for rdf:type.", "quantifier": "every predicate", "why_tests_cant": "Needs the predicates outside the common ones.", "anchors": ["rdftk_io/src/turtle/writer.rs write_verb"]}
{"id": "C49", "title": "Indentation is balanced", "statement": "After any sequence of indents and outdents in which no prefix has more outdents than indents, the indentation is the starting one plus width times the difference; an outdent at the starting level is a reported failure and never a smaller indentation.", "quantifier": "every operation sequence, offset and width", "why_tests_cant": "Histories of any length.", "anchors": ["rdftk_io/src/common/indenter.rs"]}
{"id": "C50", "title": "Graphviz output gives each node one identifier", "statement": "In the graph drawing, different nodes have different identifiers, a node keeps its identifier, and each edge ends at the identifier of its object's node.", "quantifier": "every graph and option set", "why_tests_cant": "Collisions need particular node kinds or options.", "anchors": ["rdftk_io/src/dot/writer.rs"]}
{"id": "C51", "title": "XML names split at the last separator", "statement": "Splitting a predicate IRI for XML gives a namespace ending in '#' or '/' and a local name without either, whose concatenation is the IRI, for every IRI with a separator.", "quantifier": "every IRI text", "why_tests_cant": "Byte and character counts differ outside ASCII.", "anchors": ["rdftk_io/src/xml/writer.rs split_uri"]}
{"id": "C52", "title": "XML output names every property element by its predicate", "statement": "In the XML written for a subject, each property element is named by its predicate, also when the predicate has several objects.", "quantifier": "every graph", "why_tests_cant": "Shows only with several objects for one predicate.", "anchors": ["rdftk_io/src/xml/writer.rs write_subject"]}
{"id": "C53", "title": "Vocabulary members are well formed and distinct", "statement": "Each vocabulary's member names are valid names, so building its table never fails, different members of one vocabulary have different IRIs, and each member IRI splits into the vocabulary namespace and the member name.", "quantifier": "every vocabulary and every member", "why_tests_cant": "Tables hold hundreds of names; nothing tests them all.", "anchors": ["rdftk_names/src/lib.rs namespace!", "rdftk_names/src/rdf.rs", "rdftk_names/src/xsd.rs"]}
{"id": "C54", "title": "Container member IRIs are distinct", "statement": "The IRIs for numbered container members differ for different numbers and differ from all other members of the RDF vocabulary.", "quantifier": "every pair of numbers", "why_tests_cant": "Unbounded numbers.", "anchors": ["rdftk_names/src/rdf.rs member"]}
{"id": "C55", "title": "Predefined vocabularies are usable in prefix maps", "statement": "Every predefined vocabulary has a valid prefix and an IRI that looks like a namespace, no two share a prefix or an IRI, the default and common maps can be built, and names made in a vocabulary compress back to its prefix and the name.", "quantifier": "every predefined vocabulary, every ASCII name", "why_tests_cant": "Unbounded names; the constructors panic on a bad table entry.", "anchors": ["rdftk_iri/src/vocab.rs", "rdftk_iri/src/map.rs default", "rdftk_iri/src/map.rs common"]}
{"id": "C56", "title": "W3C vocabulary tables contain only W3C terms", "statement": "Every member of the XSD, RDF, RDFS and OWL tables is a term of that vocabulary.", "quantifier": "every member of the four tables", "why_tests_cant": "A misspelt term works consistently with itself.", "anchors": ["rdftk_names/src/xsd.rs", "rdftk_names/src/rdf.rs", "rdftk_names/src/rdfs.rs", "rdftk_names/src/owl.rs"]}
{"id": "C57", "title": "Vocabulary lists of the two crates agree", "statement": "A prefix known to both the vocabulary list of the IRI crate and the tables of the names crate stands for the same namespace in both, and a namespace known to both has the same prefix.", "quantifier": "every pair of entries", "why_tests_cant": "Two hand-written lists in different crates.", "anchors": ["rdftk_iri/src/vocab.rs", "rdftk_names/src"]}
{"id": "C58", "title": "The text of a duration literal denotes the duration", "statement": "Reading the lexical form of a literal built from a duration as an xsd:duration gives the duration in nanoseconds.", "quantifier": "every duration", "why_tests_cant": "Depends on the number of digits of the nanoseconds.", "anchors": ["rdftk_core/src/model/literal.rs From<Duration>"]}
{"id": "C59", "title": "Literals of IRIs, names and language tags compare like the values", "statement": "A literal built from an IRI, name or language tag compares equal to a value of the same type exactly when it is that value, and the IRI can be converted back.", "quantifier": "every pair of values in printable ASCII without quote and backslash", "why_tests_cant": "Unbounded values; depends on how the IRI type prints.", "anchors": ["rdftk_core/src/model/literal.rs From<Iri>", "rdftk_core/src/model/literal.rs PartialEq<Iri>", "rdftk_core/src/model/literal.rs TryFrom<Literal>"]}
{"id": "C60", "title": "Editing one component of an IRI leaves the others", "statement": "Replacing or removing the fragment, or replacing the path of a hierarchical IRI, changes that component to the new value, percent encoded, and keeps scheme, authority and the other components; the fragment can be put back.", "quantifier": "every IRI and new value", "why_tests_cant": "All combinations of present and absent components.", "anchors": ["rdftk_iri/src/iri.rs Iri::with_new_fragment", "rdftk_iri/src/iri.rs Iri::with_no_fragment", "rdftk_iri/src/iri.rs Iri::with_new_path"]}
{"id": "C61", "title": "Percent encoding of paths and fragments can be undone", "statement": "The encoded text of a path or fragment decodes to the UTF-8 bytes of the original if that holds no percent sign, and holds none of the characters that had to be encoded.", "quantifier": "every text", "why_tests_cant": "All characters of Unicode.", "anchors": ["rdftk_iri/src/iri.rs Iri::with_new_fragment", "rdftk_iri/src/iri.rs Iri::with_new_path"]}
{"id": "C62", "title": "JSON layout does not matter", "statement": "The pretty and the compact text of an RDF/JSON document are read with the same result, and any JSON value the writer can build is read back from its text exactly.", "quantifier": "every graph, every value without numbers of depth at most 127", "why_tests_cant": "Recursive texts and escapes of every character.", "anchors": ["rdftk_io/src/json/writer.rs write", "rdftk_io/src/json/reader.rs read"]}
{"id": "C63", "title": "RDF/JSON output does not depend on visiting order", "statement": "The document written for a graph is the same whatever the order in which the subjects and predicates of the graph are visited.", "quantifier": "every graph and every pair of orders", "why_tests_cant": "The order of hash sets is random.", "anchors": ["rdftk_io/src/json/writer.rs write"]}
{"id": "C64", "title": "RDF/JSON is refused exactly for terms that cannot be expanded", "statement": "Writing a graph as RDF/JSON fails exactly when a statement has nested terms that the expansion leaves behind.", "quantifier": "every graph", "why_tests_cant": "Unbounded nesting.", "anchors": ["rdftk_io/src/json/writer.rs write", "rdftk_core/src/model/graph.rs simplify"]}
{"id": "C65", "title": "Reading RDF/JSON never panics", "statement": "No text makes the RDF/JSON reader panic.", "quantifier": "every text", "why_tests_cant": "All texts.", "anchors": ["rdftk_io/src/json/reader.rs parse_bnode_object", "rdftk_io/src/json/reader.rs parse_graph"]}
{"id": "C66", "title": "RDF/JSON documents have the form of the W3C note", "statement": "A written document has exactly one value per statement, under the text of the subject and of the predicate, and the value has the members that the W3C note gives it.", "quantifier": "every graph that is written", "why_tests_cant": "Unbounded graphs; the code's own reader shares the mistakes.", "anchors": ["rdftk_io/src/json/writer.rs write", "rdftk_io/src/json/syntax.rs"]}
{"id": "C67", "title": "Turtle output ends", "statement": "The Turtle writer finishes on every graph whose IRIs can be printed; with nested blank nodes it finishes if and only if no chain of blank nodes, each described and occurring in an object of the one before, is endless.", "quantifier": "every graph, visiting order and option set", "why_tests_cant": "Endless recursion depends on cycles of any length, and finishing must hold for graphs of any size and depth.", "anchors": ["rdftk_io/src/turtle/writer.rs write_triples", "rdftk_io/src/turtle/writer.rs write_sub_graph", "rdftk_io/src/turtle/writer.rs write_object"]}
{"id": "C68", "title": "Turtle output means the graph", "statement": "A reader that follows the W3C Turtle recommendation reads the text written for a graph as exactly the triples of the graph.", "quantifier": "every graph, prefix map, base, option set and visiting order", "why_tests_cant": "The code has no Turtle reader (todo!), and the claim is about all graphs and an independent reader.", "anchors": ["rdftk_io/src/turtle/writer.rs write", "rdftk_io/src/turtle/writer.rs write_literal", "rdftk_io/src/turtle/writer.rs write_predicate_object"]}
{"id": "C69", "title": "Turtle output does not depend on hash order", "statement": "The text written for a graph is the same whatever the order in which hash sets are visited; at least its meaning is.", "quantifier": "every graph and two visiting orders", "why_tests_cant": "The order is random per process and cannot be controlled by a test.", "anchors": ["rdftk_io/src/turtle/writer.rs group_predicates", "rdftk_io/src/turtle/writer.rs write_triples"]}
{"id": "C70", "title": "Turtle output of nested statements describes the nested statement", "statement": "When the writer replaces a nested statement by a blank node, that blank node is described as a statement with the subject, predicate and object of the nested one.", "quantifier": "every graph with nested statements", "why_tests_cant": "All graphs; needs the generated nodes to be followed.", "anchors": ["rdftk_io/src/turtle/writer.rs write"]}
{"id": "C71", "title": "N-Triples and N-Quads readers accept exactly the grammar", "statement": "A text is accepted by the reader if and only if it is a document of the W3C grammar, and the statements read are those the text holds.", "quantifier": "every text", "why_tests_cant": "Acceptance of wrong texts ranges over all texts.", "anchors": ["rdftk_io/src/common/common.pest", "rdftk_io/src/common/parser/ntriples.rs", "rdftk_io/src/common/parser/nquads.rs"]}
{"id": "C72", "title": "A Graphviz writer draws each graph alone", "statement": "A writer used for a second graph draws that graph's nodes and edges only, as a new writer would.", "quantifier": "every two graphs", "why_tests_cant": "Needs the state left by any earlier graph.", "anchors": ["rdftk_io/src/dot/writer.rs"]}
{"id": "C73", "title": "Drawing a graph does not panic", "statement": "The Graphviz writer returns for every graph.", "quantifier": "every graph, option set and earlier use", "why_tests_cant": "The panic depends on the form of predicate IRIs.", "anchors": ["rdftk_io/src/dot/writer.rs", "rdftk_iri/src/map.rs compress"]}
{"id": "C74", "title": "XML output is well-formed with namespaces", "statement": "The events the RDF/XML writer emits are those of a document that is well formed, balanced, and uses declared prefixes and allowed names only.", "quantifier": "every graph RDF/XML can express, either style", "why_tests_cant": "Names depend on the predicates and on how many values each has.", "anchors": ["rdftk_io/src/xml/writer.rs"]}
{"id": "C75", "title": "Flat XML output says the graph", "statement": "The statements that the W3C grammar gives to a flat document are exactly those of the graph.", "quantifier": "every graph RDF/XML can express and every order of visit", "why_tests_cant": "Needs the meaning of any document, not a text to compare with.", "anchors": ["rdftk_io/src/xml/writer.rs"]}
{"id": "C76", "title": "RDF/XML round trip", "statement": "Reading what the writer wrote gives the statements of the graph.", "quantifier": "every graph RDF/XML can express", "why_tests_cant": "Losses depend on kinds of nodes, types and texts.", "anchors": ["rdftk_io/src/xml/writer.rs", "rdftk_io/src/xml/reader.rs"]}
{"id": "C77", "title": "The XML reader follows the RDF/XML grammar", "statement": "A document that stands for statements by the W3C grammar is read as these statements.", "quantifier": "every document of the grammar", "why_tests_cant": "The grammar nests without bound.", "anchors": ["rdftk_io/src/xml/reader.rs"]}
{"id": "C78", "title": "The XML reader ends", "statement": "The reader comes to an end on every document in which the elements are closed.", "quantifier": "every sequence of events", "why_tests_cant": "Termination is not observable by testing.", "anchors": ["rdftk_io/src/xml/reader.rs"]}
{"id": "C79", "title": "The XML reader does not panic", "statement": "No document makes the reader panic.", "quantifier": "every sequence of events in which elements are closed", "why_tests_cant": "Panics hide in unwraps and unimplemented branches.", "anchors": ["rdftk_io/src/xml/reader.rs"]}
{"id": "C80", "title": "Striped XML output says the graph", "statement": "A document in striped style says the statements of the graph up to the labels of blank nodes, and writing it ends.", "quantifier": "every graph RDF/XML can express", "why_tests_cant": "Shared, unreached and circular blank nodes are unbounded shapes.", "anchors": ["rdftk_io/src/xml/writer.rs"]}
{"id": "C81", "title": "The XML writer does not panic", "statement": "Writing returns for every graph.", "quantifier": "every graph and style", "why_tests_cant": "Depends on the form of predicates.", "anchors": ["rdftk_io/src/xml/writer.rs split_uri"]}
{"id": "C82", "title": "JSON documents are taken exactly by RFC 8259", "statement": "The JSON reader under RDF/JSON gives a value for a text exactly when the text follows the grammar of RFC 8259 with at most 127 arrays and objects inside each other; the value is that of the text, a repeated name has its last value, and every other text is an error.", "quantifier": "every text and every value", "why_tests_cant": "Escapes, surrogates, numbers, nesting and white space combine without bound, and rejecting every wrong text is no finite check.", "anchors": ["rdftk_io/src/json/reader.rs", "serde_json from_reader as used by rdftk_io"]}
{"id": "C83", "title": "N-Triples are read as what they say", "statement": "A document that follows the grammar, in any layout, is read as the graph of exactly the triples that its lines stand for by the W3C recommendation: escapes in IRIs and strings stand for their characters, a suffix gives the language or the data type.", "quantifier": "every document of the grammar whose IRIs, language tags and labels are accepted", "why_tests_cant": "Any number of lines, any escapes and any layout; equality of sets of triples over all of them.", "anchors": ["rdftk_io/src/nt/reader.rs", "rdftk_io/src/common/parser/ntriples.rs", "rdftk_io/src/common/common.pest"]}
{"id": "C84", "title": "N-Quads are read as what they say", "statement": "A document that follows the grammar, in any layout, is read as the data set that has under each name, and in the default graph, exactly the triples that its lines stand for by the W3C recommendation.", "quantifier": "every document of the grammar whose IRIs, language tags and labels are accepted", "why_tests_cant": "Any number of lines and graphs in any order, any escapes and any layout.", "anchors": ["rdftk_io/src/nq/reader.rs", "rdftk_io/src/common/parser/nquads.rs", "rdftk_io/src/common/common.pest"]}
{"id": "C85", "title": "Every command returns", "statement": "The process ends with success or failure for every command and input, never by a panic or without end; it succeeds exactly with the text that the writer makes of the graph that was read.", "quantifier": "every input, every pair of representations and every environment", "why_tests_cant": "Quantifies over all inputs of all representations; tests only try some files.", "anchors": ["rdftk_cli/src/main.rs main", "rdftk_cli/src/commands/mod.rs read_graph, write_graph", "rdftk_cli/src/commands/representations.rs", "rdftk_cli/src/commands/draw.rs", "rdftk_cli/src/commands/namespaces.rs"]}
{"id": "C86", "title": "Conversion keeps the graph", "statement": "What the convert command writes is read again, in the representation it was written in, as the same statements.", "quantifier": "every readable input and every target", "why_tests_cant": "All documents and hash orders; the composition of reader, simplification, writer and reader again.", "anchors": ["rdftk_cli/src/commands/representations.rs execute", "rdftk_cli/src/commands/mod.rs read_graph, write_graph"]}
{"id": "C87", "title": "Graphs that are read have no name and no prefixes of their own", "statement": "Whatever the reader, the graph of a document is unnamed and its prefixes are those of a new graph.", "quantifier": "every input of every representation", "why_tests_cant": "An invariant of three readers over all inputs.", "anchors": ["rdftk_io/src/json/reader.rs parse_graph", "rdftk_io/src/common/parser/ntriples.rs parse_doc", "rdftk_io/src/xml/reader.rs read"]}
{"id": "C88", "title": "Values of rdftk_iri survive JSON", "statement": "Names, namespaces, IRIs, local names, prefixed names, IRI references and prefix maps that are serialized to JSON text are deserialized as the same values.", "quantifier": "all values, all strings in them, all reachable prefix maps", "why_tests_cant": "All strings, with every escape of the JSON writer; maps of any size.", "anchors": ["rdftk_iri/src/pname.rs derives of Name, Namespace, LocalName and the prefixed name (50, 100, 147, 185)", "rdftk_iri/src/iri.rs derives of Iri and IriRef (29, 49)", "rdftk_iri/src/map.rs derives of IriPrefixMap (44)"]}
{"id": "C89", "title": "Deserialized names are names", "statement": "A name, namespace or local name that is deserialized from JSON text is one that parsing accepts.", "quantifier": "every JSON text", "why_tests_cant": "All texts; the exact set of texts that are accepted.", "anchors": ["rdftk_iri/src/pname.rs derives of Deserialize (50, 100, 147, 185) and from_str", "rdftk_iri/src/map.rs derive of Deserialize (44)"]}
{"id": "C90", "title": "Printed statements tell statements apart", "statement": "Two statements, subjects or objects that print the same are equal.", "quantifier": "all statements of any depth, both forms of printing", "why_tests_cant": "Pairs of statements nested to any depth; unique readability of the printed form.", "anchors": ["rdftk_core/src/model/statement.rs Display of Statement (61)", "rdftk_core/src/model/statement/subject.rs Display (93)", "rdftk_core/src/model/statement/object.rs Display (121)", "rdftk_core/src/model/statement/collection.rs Display (141)", "rdftk_core/src/model/literal.rs Display of Literal (825)"]}
{"id": "C91", "title": "Floating point literals compare like the values", "statement": "A literal made of a float equals a float exactly if the floats are equal.", "quantifier": "all pairs of f64 and of f32 values", "why_tests_cant": "NaN, infinities, both zeros and all finite values; needs that printing is injective.", "anchors": ["rdftk_core/src/model/literal.rs From<f64>, PartialEq<f64> (496-506), From<f32>, PartialEq<f32> (565-575)"]}
{"id": "C92", "title": "The text of a floating point literal is in its data type", "statement": "The lexical form of a literal made of a float is one of xsd:double or xsd:float.", "quantifier": "all floats", "why_tests_cant": "All values against the grammar of XML Schema.", "anchors": ["rdftk_core/src/model/literal.rs From<f64> (496-500), From<f32> (565-569)"]}
{"id": "C93", "title": "Decimal literals compare like the numbers", "statement": "A literal made of a decimal equals a decimal exactly if the numbers are equal.", "quantifier": "all pairs of decimals", "why_tests_cant": "All digits, scales and signs.", "anchors": ["rdftk_core/src/model/literal.rs From<Decimal>, PartialEq<Decimal> (471-490)"]}
{"id": "C94", "title": "The text of a decimal literal denotes the number", "statement": "The lexical form of a literal made of a decimal is an xsd:decimal text that denotes the number.", "quantifier": "all decimals", "why_tests_cant": "All digits, scales and signs; value of the text as a rational number.", "anchors": ["rdftk_core/src/model/literal.rs From<Decimal> (471-476)"]}
{"id": "C95", "title": "Well-known IRIs keep the server and are distinct", "statement": "genid resolves the well-known path against the base by RFC 3986, keeps scheme and server, and gives different IRIs for different identifiers.", "quantifier": "all IRIs and all identifiers", "why_tests_cant": "All bases and all 128-bit identifiers.", "anchors": ["rdftk_iri/src/iri.rs genid (470-484)"]}
{"id": "C96", "title": "Printed data types tell data types apart", "statement": "Data types that print the same are equal, and the printed name of a built-in type expands to its IRI.", "quantifier": "all pairs of data types", "why_tests_cant": "All IRIs of other types.", "anchors": ["rdftk_core/src/model/literal.rs Display of DataType (251-285)"]}
{"id": "C97", "title": "Builder calls accumulate", "statement": "After any calls of the resource builder the values of each predicate are those that the calls name, in the order of the calls; a predicate built apart gives the same.", "quantifier": "all sequences of calls", "why_tests_cant": "Call sequences of any length and mix.", "anchors": ["rdftk_core/src/model/resource.rs Resource (155-453), Predicate (477-620)"]}
{"id": "C98", "title": "XML literals are read as their content", "statement": "The object of a property element with rdf:parseType=\"Literal\" is the literal of type rdf:XMLLiteral whose text is that of the content.", "quantifier": "all documents with one such property, every content and every serialisation of it", "why_tests_cant": "All contents of any depth and length.", "anchors": ["rdftk_io/src/xml/reader.rs parse_xml_literal_element (446-486), parse_predicate_element (330-345)"]}
{"id": "C99", "title": "Replaced fragments and paths follow the grammar of IRIs", "statement": "After replacing the fragment or the path of an IRI, the new one is a fragment or path by RFC 3986.", "quantifier": "all IRIs and all texts", "why_tests_cant": "All texts over Unicode.", "anchors": ["rdftk_iri/src/iri.rs with_new_fragment (185-192), with_new_path (156-163)"]}
{"id": "C100", "title": "Indices hold the statements", "statement": "In a graph with indices, each index holds for every key the statements that have the key, as often as the graph holds them.", "quantifier": "all constructors and all sequences of calls", "why_tests_cant": "States come from unbounded sequences of calls.", "anchors": ["rdftk_core/src/simple/indexed.rs create (86-106), insert (222-254), merge, dedup, remove, remove_all_for, clear (256-312), remove_from_index (334-344)"]}
{"id": "C101", "title": "Reported nodes are those of the statements", "statement": "A graph with indices reports as its subjects, predicates and objects those of its statements.", "quantifier": "all sequences of calls", "why_tests_cant": "Depends on the whole history of the graph.", "anchors": ["rdftk_core/src/simple/indexed.rs contains_subject (133-135), subjects, predicates, objects (180-197)"]}
{"id": "C102", "title": "Patterns find the statements that agree", "statement": "A pattern of optional subject, predicate and object finds the statements of the graph that agree with the parts given.", "quantifier": "all graphs and patterns", "why_tests_cant": "All states, and all patterns over them.", "anchors": ["rdftk_core/src/simple/indexed.rs matches (137-174), predicates_for (188-193), objects_for (199-208)"]}
{"id": "C103", "title": "Changes to a graph with indices are exact", "statement": "Insert, merge, remove, dedup, remove_all_for and clear change the statements of a graph as their documentation says, and return the statements they removed.", "quantifier": "all graphs, statements and orders of the sets", "why_tests_cant": "All states and hash orders.", "anchors": ["rdftk_core/src/simple/indexed.rs insert to clear (222-312)"]}
{"id": "C104", "title": "Inverse relations", "statement": "The inverse of the inverse of a SKOS relation is the relation, and SKOS and ISO 25964 declare the properties of a relation and its inverse as inverse.", "quantifier": "all relations", "why_tests_cant": "Finite, but the relations are compared with the vocabularies, not with the code's own tables.", "anchors": ["rdftk_skos/src/model/concept.rs ConceptRelation inverse, to_uri (60-140)"]}
{"id": "C105", "title": "Listing a thesaurus ends and lists each thing once", "statement": "The concepts and collections of every thesaurus built by calls can be listed, and each is listed once.", "quantifier": "all sequences of calls", "why_tests_cant": "Recursion over graphs of any size and shape.", "anchors": ["rdftk_skos/src/model/scheme.rs concepts_flattened, collections_flattened (216-270)", "rdftk_skos/src/model/concept.rs concepts_flattened", "rdftk_skos/src/model/collection.rs collections_flattened"]}
{"id": "C106", "title": "Everything made is described", "statement": "Of every concept and collection of a thesaurus the graph says that it is one and belongs to the scheme.", "quantifier": "all sequences of calls", "why_tests_cant": "Unbounded sequences of calls.", "anchors": ["rdftk_skos/src/model/scheme.rs to_statements", "rdftk_skos/src/model/concept.rs new, related, sub_concept (223-297)"]}
{"id": "C107", "title": "The graph of a thesaurus says what the thesaurus holds", "statement": "The statements written for a thesaurus are exactly the types, memberships, relations, labels and properties of what it holds, and the lists of ordered collections.", "quantifier": "all thesauri", "why_tests_cant": "All thesauri and all statements.", "anchors": ["rdftk_skos/src/model/scheme.rs, concept.rs, collection.rs, properties.rs to_statements", "rdftk_skos/src/model/mod.rs to_rdf_graph (105-135)"]}
{"id": "C108", "title": "Ordered collections are linked to their lists", "statement": "An ordered collection is written as skos:memberList with an RDF list of its members in their order.", "quantifier": "all ordered collections", "why_tests_cant": "Lists of every length.", "anchors": ["rdftk_skos/src/model/collection.rs to_statements, make_list_node, add_to_list_node, make_list_end"]}
{"id": "C109", "title": "Preferred labels", "statement": "The label that was added last as preferred for a language is the one that is returned.", "quantifier": "all resources, labels and languages", "why_tests_cant": "Depends on all labels added before.", "anchors": ["rdftk_skos/src/model/mod.rs get_preferred_label_for", "rdftk_skos/src/model/properties.rs Label"]}
{"id": "C110", "title": "Property constructors use their predicates", "statement": "Each constructor of a literal property uses the predicate of its name, with the literal that was given.", "quantifier": "all constructors and texts", "why_tests_cant": "All texts; the predicates are compared with the vocabularies.", "anchors": ["rdftk_skos/src/model/properties.rs LiteralProperty"]}
{"id": "C111", "title": "Standard prefixes of a thesaurus graph", "statement": "The graph of a thesaurus has the standard prefixes, whatever the default namespace.", "quantifier": "all default namespaces", "why_tests_cant": "All IRIs as default namespaces.", "anchors": ["rdftk_skos/src/model/mod.rs to_rdf_graph, standard_mappings (105-187)"]}
{"id": "C112", "title": "Making a document changes nothing", "statement": "Making a document about a thesaurus leaves the thesaurus as it is.", "quantifier": "all sequences of calls, languages and equalities of concepts", "why_tests_cant": "Depends on the relations of all concepts.", "anchors": ["rdftk_skos/src/document.rs make_document_with_mappings (72-157)"]}
{"id": "C113", "title": "Integrity conditions of SKOS", "statement": "The graph of a thesaurus satisfies the conditions S9, S13, S14 and S37: disjoint classes, disjoint kinds of labels, one preferred label for a language.", "quantifier": "all sequences of calls", "why_tests_cant": "Conditions over pairs of statements of graphs of any size.", "anchors": ["rdftk_skos/src/model/scheme.rs, concept.rs, collection.rs, properties.rs"]}
{"id": "C114", "title": "A document describes each concept once, in order", "statement": "A document about a thesaurus describes every concept of the scheme exactly once, in the order of the labels.", "quantifier": "all thesauri", "why_tests_cant": "Sorting and removal of duplicates on lists of any length.", "anchors": ["rdftk_skos/src/document.rs make_document_with_mappings (118-141)"]}
{"id": "C115", "title": "A vocabulary is written as what it says", "statement": "The statements written for an RDFS vocabulary are its labels, the types of its classes and properties, their parents as superclasses and superproperties, and the domains and ranges.", "quantifier": "all vocabularies", "why_tests_cant": "All vocabularies, and all statements that follow by the rules of RDFS.", "anchors": ["rdftk_ontology/src/rdfs/mod.rs to_statements (368-410), to_label_statements (457-503), to_statements (505-534)"]}
{"id": "C116", "title": "Vocabularies after calls", "statement": "A vocabulary holds exactly the classes and properties that were last added with their IRI and not removed since; vectors hold what was added since it was last removed.", "quantifier": "all sequences of calls", "why_tests_cant": "Unbounded sequences of calls.", "anchors": ["rdftk_ontology/src/rdfs/mod.rs add_class to properties (426-450), add_domain to range (340-364)", "rdftk_ontology/src/macros.rs (16-75)", "rdftk_ontology/src/lib.rs is_instance_of, is_child_of (70-86)"]}
{"id": "C117", "title": "The schema of RDFS", "statement": "The vocabulary rdf_schema is written with the axioms of RDFS.", "quantifier": "all orders in which the maps are visited", "why_tests_cant": "Compared with the axioms of the specification and what follows from them, for every order of the hash maps.", "anchors": ["rdftk_ontology/src/rdfs/mod.rs rdf_schema (57-196)", "rdftk_names/src/rdfs.rs"]}
{"id": "C118", "title": "Written query results are read back", "statement": "Query results that are written as CSV or TSV are read back by the rules of RFC 4180, record by record and field by field.", "quantifier": "all results, options and styles of IRIs", "why_tests_cant": "All results, with any text in them: quotes, separators and line ends.", "anchors": ["rdftk_query/src/sparql/results/csv.rs to_writer (73-95)", "rdftk_query/src/sparql/results/csv.rs from_reader (46-63)", "rdftk_query/src/results.rs Value Display (95-107)"]}
{"id": "C119", "title": "Values in query results", "statement": "Values and variables in query results have the forms that the recommendation on CSV and TSV results asks for.", "quantifier": "all values, both formats, both styles of IRIs", "why_tests_cant": "All values of all types, compared with the recommendation.", "anchors": ["rdftk_query/src/results.rs Value Display (95-107)", "rdftk_query/src/sparql/results/csv.rs to_writer (73-95)"]}
{"id": "C120", "title": "Query results written to a file", "statement": "When query results are written to a file without an error, the file has their text.", "quantifier": "all results, options, and contents of the file before", "why_tests_cant": "All results and states of the file.", "anchors": ["rdftk_query/src/sparql/results/csv.rs to_file (97-103)"]}
{"id": "C121", "title": "Variables of queries", "statement": "A variable of the grammar of SPARQL is read, with its name, up to the first character that is not one of names.", "quantifier": "all names, and all texts that follow", "why_tests_cant": "All names, over the whole of Unicode, and all texts.", "anchors": ["rdftk_query/src/sparql/parser/common.rs variable (289-297)", "rdftk_query/src/sparql/parser/common.rs var_name (306-314)", "rdftk_query/src/sparql/parser/common.rs is_var_name_head (636-639)", "rdftk_query/src/sparql/parser/common.rs is_var_name_tail (648-654)", "rdftk_query/src/sparql/mod.rs Variable::from_str (61-71)"]}
{"id": "C122", "title": "IRIs in queries", "statement": "IRIREF is read just where it stands, with the IRI between the brackets, and the white space after it is used up.", "quantifier": "all texts", "why_tests_cant": "All texts, in both directions.", "anchors": ["rdftk_query/src/sparql/parser/common.rs iri_ref (359-371)", "rdftk_query/src/sparql/parser/common.rs is_iri_reserved (534-540)"]}
{"id": "C123", "title": "Prefixed names in queries", "statement": "A prefixed name of the grammar of SPARQL is read, and the white space after it is used up.", "quantifier": "all prefixes, local names and texts that follow", "why_tests_cant": "All names of any length, and all escapes.", "anchors": ["rdftk_query/src/sparql/parser/common.rs prefixed_name (49-57)", "rdftk_query/src/sparql/parser/common.rs prefixed_name_namespace (379-387)", "rdftk_query/src/sparql/parser/common.rs prefixed_name_local (432-444)", "rdftk_query/src/sparql/parser/common.rs prefixed_name_local_tail (453-464)", "rdftk_query/src/sparql/parser/common.rs percent_escape (488-496)"]}
{"id": "C124", "title": "Prologues of queries", "statement": "A prologue of the grammar of SPARQL, any number of declarations of bases and prefixes, is used up, and no more than that.", "quantifier": "all prologues and all texts that follow", "why_tests_cant": "Any number of declarations, of any length, in any case and with any white space.", "anchors": ["rdftk_query/src/sparql/parser/common.rs prologue (29-37)", "rdftk_query/src/sparql/parser/common.rs base_decl (223-234)", "rdftk_query/src/sparql/parser/common.rs prefix_decl (242-254)"]}
{"id": "C125", "title": "Language tags, keywords and booleans of queries", "statement": "Language tags, keywords and the two booleans are read just where they stand, whole.", "quantifier": "all texts", "why_tests_cant": "All texts, in both directions.", "anchors": ["rdftk_query/src/sparql/parser/common.rs lang_tag (322-341)", "rdftk_query/src/sparql/parser/common.rs keyword (343-351)", "rdftk_query/src/sparql/parser/common.rs boolean_literal (206-215)"]}
{"id": "C126", "title": "What calls make of a thesaurus", "statement": "After any calls that build a thesaurus, its concepts, collections and scheme have just what the calls gave them, in order.", "quantifier": "all sequences of calls", "why_tests_cant": "Sequences of calls of any length.", "anchors": ["rdftk_skos/src/model/scheme.rs new_top_concept_with_label (189-203)", "rdftk_skos/src/model/scheme.rs new_top_collection_with_label (233-247)", "rdftk_skos/src/model/concept.rs add_related_concept (225-231)", "rdftk_skos/src/model/concept.rs sub_concept_with_label (239-253)", "rdftk_skos/src/model/concept.rs add_external_relation (342-344)", "rdftk_skos/src/model/collection.rs add_member_concept (247-249)"]}
{"id": "C127", "title": "RDF/JSON is read as what it says", "statement": "A document of the form of the W3C note on RDF/JSON is read as the triples it says, one for each object, in the order of the document.", "quantifier": "all texts, all documents of the form of the note", "why_tests_cant": "Documents of any size with any texts in their literals.", "anchors": ["rdftk_io/src/json/reader.rs parse_graph (73-89)", "rdftk_io/src/json/reader.rs parse_statements (91-116)", "rdftk_io/src/json/reader.rs parse_object (143-190)", "rdftk_io/src/json/reader.rs parse_literal_object (192-226)"]}
{"id": "C128", "title": "A printed formula is a block in braces", "statement": "A printed N3 formula is the declarations of its variables followed by its statements in braces, and the braces are closed.", "quantifier": "all formulae, any variables and statements", "why_tests_cant": "Formulae of any size, with any IRIs.", "anchors": ["rdftk_core/src/model/formulae.rs Display for Variable (46-58)", "rdftk_core/src/model/formulae.rs Display for Formula (94-136)", "rdftk_core/src/model/formulae.rs Formula::len (139-141)"]}
{"id": "C129", "title": "Turtle with nested blank nodes says the graph", "statement": "The Turtle text of a graph, read by a reader of the W3C recommendation, is the graph up to the names of blank nodes, also when blank nodes are nested in brackets.", "quantifier": "all graphs without collections and nested statements whose IRIs can be read, any options without conversions, any order of sets, any depth", "why_tests_cant": "Graphs of any size with blank nodes nested to any depth.", "anchors": ["rdftk_io/src/turtle/writer.rs write_object (849-885)", "rdftk_io/src/turtle/writer.rs write_blank_node_property_list (969-983)", "rdftk_io/src/turtle/writer.rs write_predicate_object_object (810-842)", "rdftk_io/src/turtle/writer.rs write_literal (776-808)", "rdftk_io/src/turtle/writer.rs write_triples (576-602)"]}
{"id": "C130", "title": "Every label is in one table of its kind", "statement": "The labels of a resource are written in one table for each kind that it has, in the order of the kinds, each under the name of its kind, with every label in it once, in the order in which they were added.", "quantifier": "all lists of labels, any language, any mappings", "why_tests_cant": "Any number of labels of seven kinds in any order.", "anchors": ["rdftk_skos/src/document.rs write_labels (239-279)", "rdftk_skos/src/model/label.rs LabelKind"]}
{"id": "C131", "title": "The table of properties shows predicate, text, data type and language", "statement": "Each property has one row, in the order of the predicates, and the row shows the predicate, the text, the data type and the language of the property.", "quantifier": "all properties, all mappings", "why_tests_cant": "Any property with any data type and any mappings.", "anchors": ["rdftk_skos/src/document.rs write_other_properties (281-323)"]}
{"id": "C132", "title": "Links in a document lead to a heading", "statement": "Every link within a document leads to a heading of the document.", "quantifier": "all thesauri, any language, any equality of concepts, any way to make names that keeps titles apart", "why_tests_cant": "Thesauri of any size and shape.", "anchors": ["rdftk_skos/src/document.rs make_document_with_mappings (72-160)", "rdftk_skos/src/document.rs write_concept_tree_inner (399-436)", "rdftk_skos/src/document.rs write_concept_relations (335-371)", "rdftk_skos/src/document.rs write_collection_membership (448-475)", "rdftk_skos/src/document.rs write_collection_members (477-513)"]}
{"id": "C133", "title": "The hierarchy in a document is the hierarchy of the thesaurus", "statement": "The ways down the list of a top concept are the ways down from it to narrower concepts, parts and instances are in italics, each list is in the order of titles, and the list is finite exactly when the hierarchy has no cycle.", "quantifier": "all thesauri, any language", "why_tests_cant": "Hierarchies of any depth and width.", "anchors": ["rdftk_skos/src/document.rs write_concept_tree (373-397)", "rdftk_skos/src/document.rs write_concept_tree_inner (399-436)"]}
{"id": "C134", "title": "The section of a concept shows all its relations", "statement": "The table of relations in the section of a concept has one row for each relation to a concept and one for each relation to an external resource.", "quantifier": "all concepts, any mappings", "why_tests_cant": "Any number of relations.", "anchors": ["rdftk_skos/src/document.rs write_concept (325-333)", "rdftk_skos/src/document.rs write_concept_relations (335-371)"]}
{"id": "C135", "title": "Documents have a proper outline", "statement": "A document begins with its only heading of the first level, has no heading deeper than the fourth, and no heading is more than one level deeper than the one before; it is made, or a panic comes of it, exactly when the thesaurus has no cycle of narrower concepts or of collections.", "quantifier": "all thesauri, any language", "why_tests_cant": "Thesauri of any size and shape.", "anchors": ["rdftk_skos/src/document.rs make_document_with_mappings (72-160)", "rdftk_skos/src/document.rs level_to_heading (184-193)", "rdftk_skos/src/document.rs write_entity_header (194-237)"]}
{"id": "C136", "title": "Collections and their members refer to each other", "statement": "The section of a collection shows each of its members in order, and the section of a resource shows exactly the collections that have it as a member.", "quantifier": "all collections and resources", "why_tests_cant": "Any number of collections and members.", "anchors": ["rdftk_skos/src/document.rs write_collection_membership (448-475)", "rdftk_skos/src/document.rs write_collection_members (477-513)", "rdftk_skos/src/model/collection.rs has_member (261-263)"]}
{"id": "C137", "title": "Each resource has a section with its title, definition and IRI", "statement": "The sections of a document are one about the thesaurus, one for each concept and one for each collection, and each begins with the kind and the title of the resource, its definition in the language of the document if it has one, and a link to its IRI.", "quantifier": "all thesauri, any language", "why_tests_cant": "Thesauri of any size and shape.", "anchors": ["rdftk_skos/src/document.rs make_document_with_mappings (72-160)", "rdftk_skos/src/document.rs write_entity_header (194-237)"]}
{"id": "C138", "title": "A document is made of every thesaurus", "statement": "Making the document about a thesaurus without cycles, in which no concept is related to itself, does not panic.", "quantifier": "all thesauri, all mappings, any language", "why_tests_cant": "Depends on every IRI of the thesaurus.", "anchors": ["rdftk_skos/src/document.rs make_document_with_mappings (72-160)", "rdftk_skos/src/document.rs write_labels (239-279)", "rdftk_skos/src/document.rs write_other_properties (281-323)", "rdftk_skos/src/document.rs write_concept_relations (335-371)", "rdftk_iri/src/iri.rs split"]}
{"id": "C139", "title": "N-Triples documents can be joined", "statement": "Two N-Triples (N-Quads) documents that are read give, one after the other, a document that is read as the statements of the first followed by those of the second.", "quantifier": "all texts", "why_tests_cant": "Every pair of documents, with comments and white space in any place.", "anchors": ["rdftk_io/src/common/parser/ntriples.rs", "rdftk_io/src/common/parser/nquads.rs", "rdftk_io/src/common/common.pest (255-274)", "rdftk_io/src/nt/reader.rs", "rdftk_io/src/nq/reader.rs"]}
{"id": "C140", "title": "A graph that is read holds each statement once", "statement": "A graph read from N-Triples has no statement twice, as a graph is a set of triples.", "quantifier": "all texts that are read", "why_tests_cant": "Any number of lines, written in any of the ways that mean the same.", "anchors": ["rdftk_io/src/common/parser/ntriples.rs", "rdftk_core/src/model/graph/mod.rs insert", "rdftk_io/src/nt/reader.rs"]}
{"id": "C141", "title": "Options are what the last call about them said", "statement": "After any calls of the functions that change the options of a writer, each option has the value that was given to it last, or its documented value if it was given none; the width of indentation cannot be set to 0.", "quantifier": "all sequences of calls, all writers", "why_tests_cant": "Sequences of any length.", "anchors": ["rdftk_io/src/turtle/writer.rs TurtleWriterOptions (141-325)", "rdftk_io/src/dot/writer.rs DotOptions (72-262)", "rdftk_io/src/xml/writer.rs XmlOptions (72-123)", "rdftk_io/src/trig/writer.rs TrigWriterOptions (27-57)", "rdftk_io/src/json/writer.rs JsonOptions (35-47)", "rdftk_io/src/nt/writer.rs NTripleWriterOptions (66-72)"]}
{"id": "C142", "title": "The two functions for an option do the same", "statement": "For each option of the Turtle writer, the function that returns new options and the one that changes options in place have the same effect.", "quantifier": "all options, all values", "why_tests_cant": "All options are possible at the start.", "anchors": ["rdftk_io/src/turtle/writer.rs TurtleWriterOptions (160-325)"]}
{"id": "C143", "title": "All options can be chosen", "statement": "For all values of the options of a writer there are calls that lead to them.", "quantifier": "all options", "why_tests_cant": "Says that no sequence of calls leads to some values.", "anchors": ["rdftk_io/src/turtle/writer.rs TurtleWriterOptions (160-325)", "rdftk_io/src/turtle/writer.rs write_verb (681-709)", "rdftk_io/src/dot/writer.rs DotOptions (87-262)"]}
{"id": "C144", "title": "Predicates are padded if this was chosen", "statement": "With the option predicate_padding, the objects of a subject begin in one column, and without it one space is behind each predicate.", "quantifier": "all graphs, prefixes and bases; subjects with one object for each predicate", "why_tests_cant": "Depends on all predicates of a subject.", "anchors": ["rdftk_io/src/turtle/writer.rs write_predicate_object_list (644-675)", "rdftk_io/src/turtle/writer.rs max_len_predicates (439-448)", "rdftk_io/src/turtle/writer.rs write_padded (405-412)"]}
{"id": "C145", "title": "Small queries of SPARQL are read", "statement": "A query that selects everything or some variables from an empty group is read to its end.", "quantifier": "all letters of keywords in both cases, all white space, all lists of variables", "why_tests_cant": "The texts are unbounded.", "anchors": ["rdftk_query/src/sparql/parser/query.rs query (40-56)", "rdftk_query/src/sparql/parser/query.rs select_query (69-82)", "rdftk_query/src/sparql/parser/query.rs select_clause (92-110)", "rdftk_query/src/sparql/parser/query.rs where_clause (126-137)", "rdftk_query/src/sparql/parser/query.rs values_clause (214-222)"]}
{"id": "C146", "title": "Small updates of SPARQL are read", "statement": "An update that clears or drops a graph, or all of some kind, is read to its end, and so are references to graphs.", "quantifier": "all letters of keywords in both cases, all white space, all IRIs", "why_tests_cant": "The texts are unbounded.", "anchors": ["rdftk_query/src/sparql/parser/update.rs update (22-33)", "rdftk_query/src/sparql/parser/update.rs update_1 (51-57)", "rdftk_query/src/sparql/parser/update.rs graph_ref (59-67)", "rdftk_query/src/sparql/parser/update.rs graph_ref_all (69-81)"]}
{"id": "C147", "title": "The trace of an error shows it and its causes", "statement": "The trace of an error is one line for each message, its own first and then those of its causes, with the number of the message, and the messages can be told from it.", "quantifier": "all errors, chains of causes of any length", "why_tests_cant": "Chains and messages are unbounded.", "anchors": ["rdftk_core/src/error.rs error_trace (334-337)", "rdftk_core/src/error.rs trace_one (465-479)", "rdftk_core/src/error.rs source (390-404)"]}
{"id": "C148", "title": "The message of an error tells its kind", "statement": "Errors of different kinds never have the same message, whatever texts are in them.", "quantifier": "all errors, all texts in them", "why_tests_cant": "The texts in messages are unbounded.", "anchors": ["rdftk_core/src/error.rs Display (343-387)"]}
{"id": "C149", "title": "N-Triples and N-Quads agree", "statement": "A document of N-Triples is a document of N-Quads that says the same statements of the default graph; the other way, what a document of N-Quads says of a graph is what its lines about the graph say as N-Triples; and both writers write a graph without a name the same.", "quantifier": "for all documents, environments, graph names, graphs and orders of visiting", "why_tests_cant": "Tests of the two readers use separate documents; that one format contains the other is a statement about all documents of both grammars at once, and the slices by graph concern every interleaving of lines.", "anchors": ["rdftk_io/src/common/parser/nquads.rs:14-78", "rdftk_io/src/common/parser/ntriples.rs:15-59", "rdftk_io/src/nq/writer.rs:36-58", "rdftk_io/src/nt/writer.rs:29-47", "rdftk_io/src/common/common.pest:255-274"]}
{"id": "C150", "title": "Converting again changes nothing", "statement": "A document of N-Triples that was converted to N-Triples is not changed by converting it again, any number of times.", "quantifier": "for all environments, documents in the grammar whose characters are printed, fair orders of visiting, and numbers of conversions", "why_tests_cant": "A test converts once; the growth of the text only shows over many conversions, and that nothing but quotes and backslashes matters is a statement about all documents and all numbers of conversions.", "anchors": ["rdftk_cli/src/commands/representations.rs:1-66", "rdftk_io/src/nt/writer.rs:29-47", "rdftk_io/src/common/parser/ntriples.rs:15-59", "rdftk_core/src/model/literal.rs:1021-1027"]}
{"id": "C151", "title": "Durations of chrono", "statement": "The text of a literal built from a chrono::Duration denotes that duration, the literal compares equal to that duration and to no other, and different durations give different literals; it agrees with the literal built from the same std::time::Duration exactly when the nanoseconds need no padding.", "quantifier": "every duration, negative ones included", "why_tests_cant": "The printed form drops zeros at the end of the fraction, pads it at the front and handles the sign apart from the value; only a proof covers every number of digits.", "anchors": ["rdftk_core/src/model/literal.rs From<chrono::Duration>", "rdftk_core/src/model/literal.rs PartialEq<chrono::Duration>"]}
{"id": "C152", "title": "Printed prefix maps and references", "statement": "Two prefix maps print the same exactly when every prefix has the same IRI in both, in whatever order they were filled, and the text has a line for each mapping; two references print the same exactly when they are the same, and in the alternate form exactly an IRI and the prefixed name with the same text are confused.", "quantifier": "every pair of prefix maps that operations can make, every pair of references", "why_tests_cant": "Every order of insertions and removals, and every pair of values.", "anchors": ["rdftk_iri/src/map.rs Display for IriPrefixMap", "rdftk_iri/src/iri.rs Display for IriRef"]}
{"id": "C153", "title": "Turtle converted from N-Triples", "statement": "A document of N-Triples converted to Turtle says, up to the names of blank nodes, the graph that was read. With IRIs written once in brackets this holds exactly when no predicate is rdfs:subClassOf, rdfs:subPropertyOf or owl:equivalentClass and no blank node that is an object is a subject too or the object of a second statement; as the code writes IRIs, no conversion to Turtle from any format can be read.", "quantifier": "every document, every environment, every order in which sets are visited", "why_tests_cant": "Every document and every Turtle text it can become; a test would compare one text.", "anchors": ["rdftk_cli/src/commands/representations.rs", "rdftk_io/src/turtle/writer.rs", "rdftk_io/src/nt/reader.rs"]}
{"id": "C154", "title": "Other bases in Turtle", "statement": "With pairs of bases to be replaced, what the writer prints for an IRI stands, in the document with the prefixes as they are printed, for the IRI with the first of the bases it starts with replaced. For one pair this holds exactly unless a prefix is used whose own IRI is moved too, or which is no prefix, or the fragment is empty.", "quantifier": "every IRI, every prefix map that operations can make, every pair of bases", "why_tests_cant": "Every IRI with every prefix map and pair of bases.", "anchors": ["rdftk_io/src/turtle/writer.rs compress_iri", "rdftk_io/src/turtle/writer.rs write_prefixes"]}
{"id": "C155", "title": "N-Triples documents as Turtle", "statement": "A document of N-Triples converted to Turtle says what the document says by the two W3C grammars, up to the names of blank nodes. With IRIs once in brackets this holds exactly when no literal has anything to escape, no predicate is one of the three written as rdf:type, and a blank node that is an object is no subject and the object of one triple only.", "quantifier": "every document of the grammar of N-Triples, every order in which sets are visited", "why_tests_cant": "Every document that follows the grammar; the meaning of both texts is a relation that a test cannot compare in general.", "anchors": ["rdftk_cli/src/commands/representations.rs", "rdftk_io/src/nt/reader.rs", "rdftk_io/src/turtle/writer.rs"]}
{"id": "C156", "title": "N-Triples documents as RDF/XML", "statement": "A document of N-Triples whose triples RDF/XML can say is converted to a well formed document of RDF/XML that says the same triples. With IRIs printed without brackets this holds exactly when no literal has anything to escape and no property of a namespace with a known prefix has two values at a subject; with the brackets of the code it holds for no document with a triple.", "quantifier": "every document of the grammar of N-Triples, every order in which sets are visited", "why_tests_cant": "Every document that follows the grammar; well-formedness and the meaning of both texts are compared, for all numbers of statements.", "anchors": ["rdftk_cli/src/commands/representations.rs", "rdftk_io/src/nt/reader.rs", "rdftk_io/src/xml/writer.rs"]}
{"id": "C157", "title": "N-Triples documents as N-Triples", "statement": "A document of N-Triples converted to N-Triples says what it said. With IRIs printed without brackets the result always is a document of N-Triples, and it says the same triples exactly when no literal of the input has an escape; with the brackets of the code the result is no document of N-Triples as soon as there is a triple. A document of N-Triples says one set of triples only.", "quantifier": "every document of the grammar of N-Triples with printed characters, every order in which sets are visited", "why_tests_cant": "Every document that follows the grammar; the meaning of input and output is compared by the grammar and not by reading the output with the same reader.", "anchors": ["rdftk_cli/src/commands/representations.rs", "rdftk_io/src/nt/reader.rs", "rdftk_io/src/nt/writer.rs"]}
{"id": "C158", "title": "N-Triples documents as RDF/JSON", "statement": "A document of N-Triples converted to RDF/JSON says what it said, by the W3C note. With IRIs printed without brackets this holds exactly when no subject is an IRI, no object a blank node and no literal has anything to escape; with the brackets of the code it holds for no document with a triple.", "quantifier": "every document of the grammar of N-Triples, every order in which sets are visited", "why_tests_cant": "Every document that follows the grammar; both texts are judged by their specifications and not by the code's own readers.", "anchors": ["rdftk_cli/src/commands/representations.rs", "rdftk_io/src/nt/reader.rs", "rdftk_io/src/json/writer.rs"]}
{"id": "C159", "title": "RDF/JSON documents as N-Triples", "statement": "A document of RDF/JSON converted to N-Triples says what it said. With IRIs printed without brackets this holds exactly when there is no boolean, no number of the types written without quotes and no xsd:anyURI: the escapes made by the reader are the ones missing in the writer. With the brackets of the code it holds for no document with a triple.", "quantifier": "every document of RDF/JSON in the form of the W3C note, every order in which sets are visited", "why_tests_cant": "Every document in that form; both texts are judged by their specifications and not by the code's own readers.", "anchors": ["rdftk_cli/src/commands/representations.rs", "rdftk_io/src/json/reader.rs", "rdftk_io/src/nt/writer.rs"]}
{"id": "C160", "title": "RDF/JSON documents written again", "statement": "A document of RDF/JSON converted to RDF/JSON says what it said. With IRIs printed without brackets this holds exactly when no subject is an IRI, no object a blank node and no literal has anything to escape; with the brackets of the code it holds for no document with a triple.", "quantifier": "every document of RDF/JSON in the form of the W3C note, every order in which sets are visited", "why_tests_cant": "Every document in that form; both texts are judged by their specifications and not by the code's own readers.", "anchors": ["rdftk_cli/src/commands/representations.rs", "rdftk_io/src/json/reader.rs", "rdftk_io/src/json/writer.rs"]}
{"id": "C161", "title": "RDF/JSON documents as RDF/XML", "statement": "A document of RDF/JSON whose triples RDF/XML can say, converted to RDF/XML, says what it said. With IRIs printed without brackets this holds exactly when no literal has anything to escape and no property of a known namespace has two values at a subject; with the brackets of the code the result is not even namespace-well-formed.", "quantifier": "every document of RDF/JSON in the form of the W3C note, every order in which sets are visited", "why_tests_cant": "Every document in that form; both texts are judged by their specifications and not by the code's own readers.", "anchors": ["rdftk_cli/src/commands/representations.rs", "rdftk_io/src/json/reader.rs", "rdftk_io/src/xml/writer.rs"]}
{"id": "C162", "title": "RDF/JSON documents as Turtle", "statement": "A document of RDF/JSON converted to Turtle says what it said. With IRIs once in brackets this holds exactly when no literal has anything to escape, numbers and truth values of the types written without quotes are of the type that Turtle gives their text, no predicate is one of the three written as rdf:type, and a blank node that is an object is no subject and the object of one triple only; with the brackets of the code the text is no Turtle.", "quantifier": "every document of RDF/JSON in the form of the W3C note, every order in which sets are visited", "why_tests_cant": "Every document in that form; both texts are judged by their specifications and not by the code's own readers.", "anchors": ["rdftk_cli/src/commands/representations.rs", "rdftk_io/src/json/reader.rs", "rdftk_io/src/turtle/writer.rs"]}
{"id": "C163", "title": "RDF/XML documents as N-Triples", "statement": "A document of RDF/XML converted to N-Triples says what it said. With IRIs once in brackets the result says certain triples exactly when the document is read and the statements stand for them, escaped texts being as they were again; but types are not read. With the brackets of the code nothing that is read becomes N-Triples.", "quantifier": "every document of RDF/XML whose characters are printed, every order in which sets are visited", "why_tests_cant": "Every document; both texts are judged by their specifications and not by the code's own readers.", "anchors": ["rdftk_cli/src/commands/representations.rs", "rdftk_io/src/xml/reader.rs", "rdftk_io/src/nt/writer.rs"]}
{"id": "C164", "title": "RDF/XML documents as RDF/JSON", "statement": "A document of RDF/XML converted to RDF/JSON says what it said. With IRIs without brackets the result says certain triples, none with a blank node as object, exactly when the document is read, the statements stand for them and no subject is an IRI; with the brackets of the code it says nothing.", "quantifier": "every document of RDF/XML whose characters are printed, every order in which sets are visited", "why_tests_cant": "Every document; both texts are judged by their specifications and not by the code's own readers.", "anchors": ["rdftk_cli/src/commands/representations.rs", "rdftk_io/src/xml/reader.rs", "rdftk_io/src/json/writer.rs"]}
{"id": "C165", "title": "RDF/XML documents written again", "statement": "A document of RDF/XML written again says what it said. With IRIs without brackets the result says certain triples exactly when the statements read stand for them and no property of a known namespace has two values at a subject; with the brackets of the code it is not well formed.", "quantifier": "every document of RDF/XML whose characters are printed, every order in which sets are visited", "why_tests_cant": "Every document; both texts are judged by their specifications and not by the code's own readers.", "anchors": ["rdftk_cli/src/commands/representations.rs", "rdftk_io/src/xml/reader.rs", "rdftk_io/src/xml/writer.rs"]}
{"id": "C166", "title": "RDF/XML documents as Turtle", "statement": "A document of RDF/XML converted to Turtle says what it said. With IRIs once in brackets the result says the triples that the statements read stand for exactly when no predicate is one of the three written as rdf:type; with the brackets of the code the text is no Turtle.", "quantifier": "every document of RDF/XML whose characters are printed, every order in which sets are visited", "why_tests_cant": "Every document; both texts are judged by their specifications and not by the code's own readers.", "anchors": ["rdftk_cli/src/commands/representations.rs", "rdftk_io/src/xml/reader.rs", "rdftk_io/src/turtle/writer.rs"]}
{"id": "C167", "title": "N-Quads documents written again", "statement": "A document of N-Quads that is read and written says what it said. With IRIs once in brackets this is so exactly when all its statements are in named graphs and no literal has an escape; a statement in the default graph is an error, and with the brackets of the code the result is no document of N-Quads as soon as there is a statement. A document of N-Quads says one set of quads only.", "quantifier": "every document of the grammar of N-Quads with printed characters, every order in which sets and graphs are visited", "why_tests_cant": "Every document that follows the grammar, with any number of graphs; the meaning of input and output is compared by the grammar and not by reading the output with the same reader.", "anchors": ["rdftk_io/src/nq/reader.rs", "rdftk_io/src/nq/writer.rs", "rdftk_io/src/common/parser/nquads.rs"]}
{"id": "C168", "title": "Skolemized graphs follow and are followed", "statement": "The graph follows, by the simple entailment of RDF 1.1 Semantics, from the graph that skolemize makes of it; and what does not mention the new IRIs follows from the skolemized graph exactly when it follows from the graph.", "quantifier": "every graph, base, source of identifiers, every other graph", "why_tests_cant": "Entailment speaks of all interpretations, which no test can visit.", "anchors": ["rdftk_core/src/model/graph.rs skolemize", "rdftk_core/src/model/graph.rs simplify"]}
{"id": "C169", "title": "Turtle follows from the graph", "statement": "A graph and the Turtle written for it follow from each other by simple entailment. The Turtle follows from the graph whatever becomes of blank nodes, if no predicate is written as another; if one is, the graph does not follow from the text.", "quantifier": "every graph and option set; every document of N-Triples, every order in which sets are visited", "why_tests_cant": "Entailment speaks of all interpretations, which no test can visit.", "anchors": ["rdftk_io/src/turtle/writer.rs", "rdftk_cli/src/commands/representations.rs"]}
{"id": "C170", "title": "Nested RDF/XML follows from the graph", "statement": "A graph and the nested RDF/XML written for it follow from each other by simple entailment. The RDF/XML always follows from the graph.", "quantifier": "every graph that can be written, every order in which sets are visited", "why_tests_cant": "Entailment speaks of all interpretations, which no test can visit.", "anchors": ["rdftk_io/src/xml/writer.rs write_subject"]}
{"id": "C171", "title": "Documents can be converted to Turtle", "statement": "Every document of N-Triples, RDF/JSON and RDF/XML without nested nodes can be converted to Turtle, given enough room for nested blank nodes. This holds, with IRIs in either style, exactly when every IRI of the document can be divided into namespace and name without a panic, every literal of type xsd:anyURI in RDF/JSON is an IRI that can be, and no blank node starts an endless chain of blank nodes.", "quantifier": "every document of the three formats that says triples, both styles of IRIs, every order in which sets are visited, every depth", "why_tests_cant": "Whether the recursion ends for some depth, for every document, cannot be observed by running the writer.", "anchors": ["rdftk_cli/src/commands/representations.rs", "rdftk_io/src/turtle/writer.rs compress_iri", "rdftk_iri/src/iri.rs split"]}
{"id": "C172", "title": "Documents can be drawn and converted", "statement": "Every document of N-Triples or RDF/JSON that says triples is converted to N-Triples, N-Quads, TriG, RDF/JSON and RDF/XML, and drawn. It always is converted to the first four; to RDF/XML exactly when every predicate has a # or a /; and drawn exactly when every predicate can be divided into namespace and name without a panic.", "quantifier": "every document of the two formats, both styles of IRIs, every order in which sets are visited", "why_tests_cant": "The exact condition needs every document, and tests with IRIs of the web never meet the failing ones.", "anchors": ["rdftk_cli/src/commands/representations.rs", "rdftk_io/src/xml/writer.rs split_uri", "rdftk_io/src/dot/writer.rs"]}
{"id": "C173", "title": "The length of Turtle text", "statement": "Turtle text written from a document is not longer than a fixed polynomial of the length of the document. In any case it is at most its directives and a fixed room for each walk of statements through blank nodes, and it opens a bracket for each such chain of statements; when no blank node is both subject and object, or blank nodes are written as labels, it is linear in the number of statements.", "quantifier": "every graph, both styles of IRIs, every option of the writer, every order in which sets are visited; every document of N-Triples for the conversion", "why_tests_cant": "Documents of tests share blank nodes once or not at all; the text doubles with every two more statements only when blank nodes are shared along a chain, and the exact growth needs every chain.", "anchors": ["rdftk_io/src/turtle/writer.rs write_object", "rdftk_io/src/turtle/writer.rs write_blank_node_property_list", "rdftk_cli/src/commands/representations.rs"]}
{"id": "C174", "title": "How much RDF/XML is written", "statement": "The number of events that the RDF/XML writer makes is bounded by a fixed polynomial of the number of statements. In the flat style it is two for each subject and two or three for each statement. In the nested style it is two for each resource and two to four for each walk of statements from a resource through blank nodes.", "quantifier": "every graph, both styles of RDF/XML and of IRIs, every order in which sets are visited, every depth", "why_tests_cant": "Documents of tests share blank nodes once or not at all; that two more statements can double the document shows only in graphs that share blank nodes along a chain.", "anchors": ["rdftk_io/src/xml/writer.rs write_subject", "rdftk_io/src/xml/writer.rs XmlStyle"]}
{"id": "C175", "title": "How the Turtle writer ends when it does not succeed", "statement": "A graph whose parts cannot all be printed makes the Turtle writer return an error; it never panics. An error or a panic always comes from an IRI or a literal of the graph, and a graph without endless chains of blank nodes always makes the writer end.", "quantifier": "every graph, all options with a positive width, every order in which sets are visited, every depth; every N-Triples and RDF/JSON document in which each IRI is an absolute one", "why_tests_cant": "Which of the two failures occurs depends on how predicates are grouped and sorted and on which part is looked up first; tests only try graphs that can be printed.", "anchors": ["rdftk_io/src/turtle/writer.rs compress_iri", "rdftk_io/src/turtle/writer.rs write_predicate_object_list", "rdftk_io/src/turtle/writer.rs write_object", "rdftk_iri/src/iri.rs split"]}
{"id": "C176", "title": "The layout of Turtle output", "statement": "Turtle text is the directives, then one block for each subject: first the subjects that are no blank nodes in their order, then the blank nodes. In a block each predicate stands on a line of its own at one level of indentation (or, for the type and if so asked, on the line of the subject), its first object begins at the same column for all predicates of the subject, further objects are separated by commas and stand on lines of their own unless they are blank nodes, predicates are separated by semicolons, and the block ends with a full stop and an empty line. Blank nodes written in brackets repeat this one level deeper without the full stop.", "quantifier": "every graph, all options, every order in which sets are visited, any depth of nesting", "why_tests_cant": "Line breaks, commas and closing brackets depend on flags and on the current indentation, which pass through five functions that call each other; tests compare a few short texts.", "anchors": ["rdftk_io/src/turtle/writer.rs write_triples", "rdftk_io/src/turtle/writer.rs write_predicate_object_list", "rdftk_io/src/turtle/writer.rs write_object_list", "rdftk_io/src/turtle/writer.rs write_collection", "rdftk_io/src/turtle/writer.rs write_blank_node_property_list", "rdftk_io/src/turtle/writer.rs write_base_iri", "rdftk_io/src/turtle/writer.rs write_prefixes"]}
{"id": "C177", "title": "Nodes equal what they are made from", "statement": "A subject, object or graph name equals a blank node, IRI, literal, collection or statement just when it is the node made from that value. A graph name is either a blank node or an IRI and has the value of that kind; a subject names a graph unless it is a statement. Generated graph names are different. The features that nodes, statements and graphs announce agree, apart from collections and names, which graphs never announce.", "quantifier": "every node, name, statement and graph", "why_tests_cant": "Each comparison is a separate implementation for a pair of types; tests compare a few pairs, mostly of equal kinds.", "anchors": ["rdftk_core/src/model/statement/subject.rs PartialEq", "rdftk_core/src/model/statement/object.rs PartialEq", "rdftk_core/src/model/graph.rs GraphName", "rdftk_core/src/model/features.rs"]}
{"id": "C178", "title": "The iterator over statements knows its length", "statement": "At any time, the length and the size hint of the iterator over the statements of a graph are the number of statements that are still to come; all statements come, and then nothing any more.", "quantifier": "every graph, every order of the set, any number of calls", "why_tests_cant": "`len` is right, so tests that use it pass; adapters and `collect` use the size hint, which is that of the trait.", "anchors": ["rdftk_core/src/model/graph.rs StatementIter"]}
{"id": "C179", "title": "Different values are hashed differently", "statement": "What a literal, node, statement or graph name writes to a hasher determines the value and where it ends: equal values write the same bytes, different values different ones, and none writes the beginning of what another one does, so no two values are sure to collide in a set or map.", "quantifier": "every literal, node, statement (of any depth) and optional graph name, whatever is written after it", "why_tests_cant": "Collisions change nothing but the speed, so that no test of results can see them; which bytes are written depends on the order and kind of all fields below.", "anchors": ["rdftk_core/src/model/literal.rs hash", "rdftk_core/src/model/statement.rs Hash", "rdftk_core/src/model/statement/object.rs Hash", "rdftk_core/src/model/statement/collection.rs Hash", "rdftk_core/src/model/graph.rs GraphName Hash"]}
{"id": "C180", "title": "What the RDF/XML reader makes of any document", "statement": "The RDF/XML reader takes just the documents of a grammar, in which an element with rdf:resource ends the node element it is in and an element inside a property element is passed through, and reads just the statements of the grammar in its order; every other document in which the elements are closed is an error or, just for the faults of C79, a panic.", "quantifier": "every list of parser events, setting, generator of labels and writer for XML literals", "why_tests_cant": "Elements nest without bound, and what one end tag closes depends on all elements before it.", "anchors": ["rdftk_io/src/xml/reader.rs:73-79", "rdftk_io/src/xml/reader.rs:133-520"]}
{"id": "C181", "title": "The grammar ends on every text", "statement": "Every rule of the pest grammar comes to an end on every text, with an answer that no longer changes when more steps are allowed; what it leaves is a tail of the text, and the rules of documents leave nothing.", "quantifier": "every rule and every text", "why_tests_cant": "A repeated part that can match nothing makes a parser run forever; whether one is reached depends on the text.", "anchors": ["rdftk_io/src/common/common.pest:1-576"]}
{"id": "C182", "title": "The readers are the grammar", "statement": "Reading N-Triples and N-Quads is the run of the grammar on the text followed by the walk over its pairs: the readers of the model and the grammar with the walk of the code agree on every text, in what is read and in every error.", "quantifier": "every text and reading environment", "why_tests_cant": "The walk relies on pairs that only the grammar decides, and texts are unbounded.", "anchors": ["rdftk_io/src/common/common.pest:330-410", "rdftk_io/src/common/parser/ntriples.rs:30-264", "rdftk_io/src/common/parser/nquads.rs:25-78"]}
{"id": "C183", "title": "N-Triples is part of Turtle, TriG and N3", "statement": "Every document that the grammar of N-Triples reads is read by the grammars of Turtle, TriG and N3.", "quantifier": "every text", "why_tests_cant": "Ordered choice can hide a later alternative behind an earlier one for a single odd input.", "anchors": ["rdftk_io/src/common/common.pest:5-92", "rdftk_io/src/common/common.pest:93-133", "rdftk_io/src/common/common.pest:134-330"]}
{"id": "C184", "title": "Turtle is part of TriG and N3", "statement": "Every document that the grammar of Turtle reads is read by the grammars of TriG and N3.", "quantifier": "every text", "why_tests_cant": "The languages share most rules, and the difference shows only where the rules are put together.", "anchors": ["rdftk_io/src/common/common.pest:5-17", "rdftk_io/src/common/common.pest:93-160", "rdftk_io/src/common/common.pest:185-225"]}
{"id": "C185", "title": "The arrow of N3", "statement": "Two formulas joined by => are a statement of N3.", "quantifier": "every two formulas", "why_tests_cant": "The alternative = is tried first and hides =>, for every text.", "anchors": ["rdftk_io/src/common/common.pest:34-45", "rdftk_io/src/common/common.pest:79-92"]}
{"id": "C186", "title": "Prefixed names are one word", "statement": "A prefixed name has no white space in it.", "quantifier": "every text read as a prefixed name", "why_tests_cant": "Rules that are not atomic skip white space and comments between their parts, so that a keyword can become a prefix.", "anchors": ["rdftk_io/src/common/common.pest:482-500", "rdftk_io/src/common/common.pest:568-576"]}
{"id": "C187", "title": "Long strings have line ends", "statement": "A long string in three quotes may have any characters other than quotes and backslashes, line ends as well.", "quantifier": "every text between the quotes", "why_tests_cant": "Which characters are let through is a question of each character at each place.", "anchors": ["rdftk_io/src/common/common.pest:418-440"]}
{"id": "C188", "title": "What the Turtle writer writes is Turtle", "statement": "Every document that the writer of Turtle writes for a graph is read by the grammar of Turtle of the same crate.", "quantifier": "every graph, set of options, order of the sets and way of printing IRIs", "why_tests_cant": "The document nests blank nodes to any depth and has any layout, while the grammar chooses between its alternatives by what it meets first; no list of samples covers their product.", "anchors": ["rdftk_io/src/turtle/writer.rs:343-1035", "rdftk_io/src/common/common.pest:134-260"]}
{"id": "C189", "title": "Numbers are read as far as they go", "statement": "At the start of a text the grammar reads the longest number of the recommendation of Turtle, whole, decimal or double, and says its kind; it reads nothing when there is none.", "quantifier": "every text", "why_tests_cant": "Ordered choice stops at the first alternative that fits; that this is the longest one depends on every pair of kinds and on what follows.", "anchors": ["rdftk_io/src/common/common.pest:360-383"]}
{"id": "C190", "title": "Prefixes and local names are read whole", "statement": "A prefix and a local name of the recommendation of Turtle are each read as one word when nothing follows with which they could go on.", "quantifier": "every prefix, local name and text behind it", "why_tests_cant": "The names allow dots inside, escapes and digits behind percent signs in any order; few of these are ever tried.", "anchors": ["rdftk_io/src/common/common.pest:482-560"]}
{"id": "C191", "title": "Pairs lie in the text they were read from", "statement": "The pairs of a parse lie one after the other in the text that was read, each with the pairs inside it in its own text, and what is left is the end of the text.", "quantifier": "every grammar, rule and text", "why_tests_cant": "Backtracking throws pairs away; a pair left over from a path that failed would show on few texts only.", "anchors": ["rdftk_io/src/common/common.pest:1-560"]}
{"id": "C192", "title": "The grammar of TriG reads what the TriG writer writes", "statement": "Every document the TriG writer writes for a data set whose graphs are named by labels and IRIs of the grammar is a document of the grammar of TriG in the same crate. Fails: an IRI is printed with its own brackets inside those the writer adds.", "quantifier": "every data set, with and without the keyword, for both ways to print an IRI", "why_tests_cant": "A name that is a blank node is read, so a test with only such names passes; the order of the alternatives decides what `GRAPH` is read as.", "anchors": ["rdftk_io/src/trig/writer.rs:74-107", "rdftk_io/src/common/common.pest:93-130", "rdftk_core/src/model/graph.rs:77-88"]}
{"id": "C193", "title": "Printed statements are Turtle", "statement": "A statement as it is printed, with a dot behind it, is a document of the grammar of Turtle, quoted statements of any depth included. Fails: IRIs are printed with brackets inside brackets, and a quoted statement may not have a list for its object.", "quantifier": "every statement, with statements quoted to any depth and lists of lists, for both ways to print IRIs", "why_tests_cant": "Whether a list may stand at a place depends on the whole nesting above it; `<<` is also the beginning of an IRI for this grammar, so a blank decides.", "anchors": ["rdftk_core/src/model/statement.rs:61-71", "rdftk_core/src/model/statement/subject.rs:93-101", "rdftk_core/src/model/statement/object.rs:121-137", "rdftk_io/src/common/common.pest:188-249"]}
{"id": "C194", "title": "TriG reads the statements that Turtle reads", "statement": "A printed statement that the grammar of Turtle reads is read by the grammar of TriG too. Fails for statements about a quoted statement outside of the braces of a graph.", "quantifier": "every statement, and every list of graphs of such statements", "why_tests_cant": "The two grammars share the rules for statements, except for the subject of one that stands outside of all graphs.", "anchors": ["rdftk_io/src/common/common.pest:93-130", "rdftk_io/src/common/common.pest:188-223"]}
{"id": "C195", "title": "N3 reads the statements that Turtle reads", "statement": "A printed statement that the grammar of Turtle reads is read by the grammar of N3 too. Fails for statements whose subject or object is a quoted statement, although N3 reads quoted statements inside of a list.", "quantifier": "every statement, with statements quoted to any depth and lists of lists, for both ways to print IRIs; every list of statements on lines of their own", "why_tests_cant": "N3 lets the predicate and the object be left out, so a refused object does not show as an error before the end of the statement; and its lists are those of Turtle.", "anchors": ["rdftk_core/src/model/statement.rs:61-71", "rdftk_io/src/common/common.pest:5-91", "rdftk_io/src/common/common.pest:188-249"]}
{"id": "C196", "title": "TriG without graphs is Turtle", "statement": "A document of TriG is a document of Turtle exactly when nothing in it stands in braces, with a name before them or without; Turtle refuses all others.", "quantifier": "every text the grammar of TriG reads, with the tree of its parse", "why_tests_cant": "TriG has rules of its own for statements outside of braces, and the word `GRAPH` may be the beginning of a name.", "anchors": ["rdftk_io/src/common/common.pest:93-148", "rdftk_io/src/common/common.pest:166-193"]}
{"id": "C197", "title": "GRAPH in small letters", "statement": "The word before the name of a graph may be written in small letters, as W3C TriG has it and as BASE and PREFIX are read here. Fails: only capital letters are read.", "quantifier": "every writing of the word, all white space and comments behind it and every text after that", "why_tests_cant": "There are 32 ways to write the word, and what follows decides whether the grammar takes it for a name.", "anchors": ["rdftk_io/src/common/common.pest:104-106", "rdftk_io/src/common/common.pest:158-164"]}
{"id": "C198", "title": "Turtle documents can be joined", "statement": "Two documents of Turtle, one after the other, are a document of Turtle whose statements are those of the first and then those of the second.", "quantifier": "all pairs of texts that the rule turtleStarDoc reads", "why_tests_cant": "Files are joined by other programs; a test would join a few harmless ones, but the grammar looks ahead: a failed attempt at the end of the first file may succeed with the text of the second.", "anchors": ["rdftk_io/src/common/common.pest:134-136", "rdftk_io/src/common/common.pest:236-241", "rdftk_io/src/common/common.pest:418-430"]}
{"id": "C199", "title": "A byte order mark before a document", "statement": "A byte order mark before a document changes nothing: the text is read, and as the same document. White space and comments before it change nothing either.", "quantifier": "all texts, for the five rules of documents", "why_tests_cant": "Tests are written in source files, where no mark stands before a string; files that come from some editors begin with one.", "anchors": ["rdftk_io/src/common/common.pest:495-509", "rdftk_io/src/common/common.pest:572-576", "rdftk_io/src/nt/reader.rs", "rdftk_io/src/nq/reader.rs"]}
{"id": "C200", "title": "How deep the parser goes", "statement": "There is a depth of calls that is enough for every text, read or refused, so that no document can make the parser run out of stack.", "quantifier": "all texts, for the five rules of documents", "why_tests_cant": "A test has a document of some depth on some stack; that deeper ones fail is seen when the process is killed, which no Result reports.", "anchors": ["rdftk_io/src/common/common.pest:5-7", "rdftk_io/src/common/common.pest:64-72", "rdftk_io/src/common/common.pest:188-206", "rdftk_io/src/common/common.pest:247-249", "rdftk_io/src/common/common.pest:255-257"]}
{"id": "C201", "title": "How deep the reader of RDF/XML goes", "statement": "There is a number of calls within each other that is enough for every document whose elements are closed in order, so that no document can make the reader of RDF/XML run out of stack.", "quantifier": "all environments, generators of blank nodes and writers of XML literals, all documents, all points of reading them", "why_tests_cant": "Whether a deeper document fails depends on the stack of the thread, and the process is killed; a test sees only the depths it tries.", "anchors": ["rdftk_io/src/xml/reader.rs:133-170", "rdftk_io/src/xml/reader.rs:172-244", "rdftk_io/src/xml/reader.rs:281-377", "rdftk_io/src/xml/reader.rs:379-444", "rdftk_io/src/xml/reader.rs:446-486"]}
{"id": "C202", "title": "How deep the Turtle writer goes", "statement": "There is a depth of calls of write_object that is enough for every graph whose parts can be printed and whose blank nodes start no endless chain, so that no such graph can make the writer run out of stack.", "quantifier": "all options, prefixes and visiting orders, all graphs, all depths", "why_tests_cant": "Tests nest two or three blank nodes; the depth at which the stack ends is not reached, and then the process is killed.", "anchors": ["rdftk_io/src/turtle/writer.rs:644-675", "rdftk_io/src/turtle/writer.rs:849-885", "rdftk_io/src/turtle/writer.rs:893-923", "rdftk_io/src/turtle/writer.rs:969-983"]}
{"id": "C203", "title": "How deep the RDF/XML writer goes", "statement": "There is a depth of calls of write_subject that is enough for every graph that RDF/XML can say and in which no statements lead along blank nodes without end.", "quantifier": "all generators of blank nodes, encodings and visiting orders, all graphs, all depths", "why_tests_cant": "Tests nest one or two blank nodes; the depth at which the stack ends is not reached, and then the process is killed.", "anchors": ["rdftk_io/src/xml/writer.rs:149-191", "rdftk_io/src/xml/writer.rs:234-321"]}
{"id": "C204", "title": "N-Quads of graphs held under another name", "statement": "What a data set holds under a key comes back under that key from N-Quads, for data sets without default graph whose literals are read as they were.", "quantifier": "all environments, orders of visit and data sets, whatever the keys are", "why_tests_cant": "A test makes its data sets by insert, where the keys are the names; From<HashMap> and graph_mut allow others.", "anchors": ["rdftk_io/src/nq/writer.rs:23-58", "rdftk_core/src/model/data_set.rs:78-82", "rdftk_core/src/model/data_set.rs:145-147"]}
{"id": "C205", "title": "How long N-Triples of N-Triples gets", "statement": "The N-Triples or N-Quads that are written for what was read from a document of N-Triples are at most ten times as long as the document, or c times for c > 10 if IRIs or language tags grow that much when parsed.", "quantifier": "all environments, factors, orders of visit, styles and documents of any length", "why_tests_cant": "The size of the output for all documents; a test measures the size for some.", "anchors": ["rdftk_io/src/nt/writer.rs:29-47", "rdftk_io/src/nq/writer.rs:36-58", "rdftk_io/src/common/parser/ntriples.rs:15-264", "rdftk_core/src/model/literal.rs:1021-1027"]}
{"id": "C206", "title": "How long RDF/JSON of N-Triples gets", "statement": "What was read from a document of N-Triples can be written as RDF/JSON, and the text is longer than the document by at most a constant factor.", "quantifier": "all environments, factors of growth, orders of visit, styles, layouts and documents of any length", "why_tests_cant": "The size of the output for all documents; a test measures the size for some.", "anchors": ["rdftk_io/src/json/writer.rs:61-130", "rdftk_io/src/common/parser/ntriples.rs:15-264"]}
{"id": "C207", "title": "What draw makes of N-Triples is DOT", "statement": "What the command draw writes for an N-Triples document is a text of the DOT language, and it draws the graph that the document is read as: an edge for each statement and one node for each subject and object.", "quantifier": "all environments whose URLs are well formed, orders of visit and documents of any length", "why_tests_cant": "The URL crate leaves a quote in the path of a URL without a slash after the scheme; tests use http addresses, where it is escaped.", "anchors": ["rdftk_io/src/dot/writer.rs:280-361", "rdftk_io/src/common/parser/ntriples.rs:47-171", "rdftk_cli/src/commands/draw.rs:48-61"]}
{"id": "C208", "title": "What draw makes of RDF/JSON", "statement": "What the command draw writes for an RDF/JSON document draws the graph that the document is read as. When no IRI keeps a quote or a backslash it always is a DOT text with an edge for each statement, and it draws the graph exactly when no two nodes are displayed alike.", "quantifier": "all environments, orders of visit and documents of any length", "why_tests_cant": "Two numbers with the same text and different types share a node; tests that draw a graph use plain text.", "anchors": ["rdftk_io/src/dot/writer.rs:280-442", "rdftk_io/src/json/reader.rs:73-274", "rdftk_core/src/model/literal.rs:825-858"]}
{"id": "C209", "title": "What a diagram says about the graph", "statement": "Two N-Triples documents for which draw writes the same text are read as the same graph but for the names of blank nodes. Types and languages of literals are not drawn, so this is false; what holds is that the graphs are the same, statement by statement, but for names of blank nodes and the types and languages of literals. In particular the short names on edges stand for one predicate each.", "quantifier": "all environments, orders of visit and pairs of documents of any length", "why_tests_cant": "It relates two documents; the tests of the writer look at one text each, and none compares the drawings of two graphs.", "anchors": ["rdftk_io/src/dot/writer.rs:280-442", "rdftk_iri/src/iri.rs:310-334", "rdftk_core/src/model/literal.rs:825-858"]}
{"id": "C210", "title": "What draw makes of RDF/XML", "statement": "What the command draw writes for an RDF/XML document is a DOT text that draws the graph that the document is read as. It is exactly when every label can stand in quotes, and always when no IRI keeps a quote or a backslash: types other than XMLLiteral are lost by the reader, so no two literals share a node.", "quantifier": "all environments, orders of visit and sequences of events of any length and nesting", "why_tests_cant": "The tests draw graphs made by hand and read small documents; none draws what was read from RDF/XML, and an IRI with a quote is in no test.", "anchors": ["rdftk_io/src/dot/writer.rs:280-442", "rdftk_io/src/xml/reader.rs:133-534", "rdftk_core/src/model/literal.rs:825-858"]}
