# Design

A Lean 4 model of the data model, IRI, input/output and command code of rust-rdftk, with theorems about it.
Sources are read as text from /repo; nothing there is built or run.

## Layout

* `lean/Verif/Model` models the code function by function. Every definition cites the file and lines it models.
* `lean/Verif/Spec` states what is expected (W3C grammars and meanings, RFC 8259, bags, RDF lists) without using the model of the code under test.
* `lean/Verif/Lemmas` holds helper lemmas, `lean/Verif/Props` the property theorems, named `Cxx_…`.
* A property that the code does not have is stated in full as `Cxx_statement`. `Cxx_fails…` proves its negation with a witness, and `…_partial` or `…_iff` theorems say for which inputs it does hold. Names of theorems that cover only a part of the property end in `_partial`.
* `seeded/LOG.jsonl` lists the wrong programs that the theorems were tested against: an edit to one model definition, made in a scratch copy, and the theorems that no longer compile.

## Trusted base

* Lean's kernel. Theorems use at most the axioms `propext`, `Classical.choice`, `Quot.sound`. There is no `sorry`, no axiom of our own, no `native_decide`.
* The reading of the code: that each definition says what the cited lines do.
* The reading of the W3C recommendations and RFCs in `Spec`.
* The third-party behaviour listed below.

## Simplifications

General
* Strings are lists of Unicode scalar values. Rust orders strings by UTF-8 bytes, which is the order of scalar values. Byte slicing at char boundaries is list splitting; slicing elsewhere is a panic.
* A panic is a value (`Outcome`, `Res`, `Run`), and so is recursion that does not end (`Run.deep`: out of fuel for every amount of fuel).
* `HashSet`/`HashMap` are duplicate-free lists. Where the visiting order can be observed, theorems quantify over every order. One map is visited in the same order each time while it is unchanged, as in Rust.
* Id generation (`unique_id` sequence, uuid) is an explicit counter or supply.
* Interior mutability, reference counting and lifetimes are not represented: a graph is its value.

Third-party crates
* `url::Url` is its serialisation, which is ASCII. Components are found by RFC 3986 splitting. `Url::parse` is a parameter, sometimes assumed to take its own serialisation. `set_path` is modelled on normalised paths without dot segments, `set_fragment` in full except tab and newline stripping.
* `language_tags` is a parameter (which texts are tags). Floats print with digits that are a parameter (injective, of the documented form); `rust_decimal` printing is modelled. Of `chrono` only `Duration` and its `Display` (version 0.4.32 and later) are modelled.
* `regex` patterns of names are hand transcriptions of the character classes.
* `pest` grammars are hand transcriptions with PEG semantics (ordered choice, greedy repetition).
* `serde_json` reading and writing is modelled on text, with its depth limit of 127; numbers are kept as text.
* `xml-rs` is modelled at event level. It does not check names on writing. White space from pretty printing is not modelled.
* `std` Debug escaping of strings takes the table of printable characters as a parameter.

Display of IRIs
* The core and I/O crates are written for an `Iri` that prints without angle brackets; the current `rdftk_iri` prints with them (`iri.rs` 62-72). The style is a parameter (`IriStyle`). Theorems hold for both styles, or name the one they need.
* `turtle/writer.rs` line 538 and following treat a prefix as an optional name and add the colon; the current `rdftk_iri` gives a `Namespace`, whose text has the colon. The model writes one colon.

Text output
* Writers return the text they would write. Text written before an error or panic is not represented. I/O errors are not modelled; input is text (invalid UTF-8, file errors and argument parsing of the commands are not modelled).

## Checks of the models against the tests of the project

Besides the theorems, the models were evaluated on inputs of the project's own tests. These runs are no proofs.
* `readNt` on the 70 files of `rdftk_io/tests/w3c/nt`: it accepts and refuses the files as `w3c_nt.rs` expects.
* `writeNt`, `writeJson`, `writeDot`, `writeTurtle` on the graph of `rdftk_io/tests/common/mod.rs`: with IRIs that print without brackets the texts are those that the tests assert.

## Not modelled

* `rdftk_skos`, `rdftk_ontology` and `rdftk_query` are not members of the workspace, but modelled as written; where they do not compile the model says what is assumed. The cells of `rdftk_skos` are indices into a store; of its documents the blocks are modelled, not their text. `results/json.rs`, `tabular.rs` and `xml.rs` of `rdftk_query` are `todo!()`.
* `rdftk_core/src/model/formulae.rs` and `simple/indexed.rs` are not compiled, but modelled as written (C100-C103 for the second).
* Readers that are `todo!()` (Turtle, TriG, N3), beyond the fact that they panic.
* Literals from `QName`.
## Properties: approach and result

Status is `proved` when the whole property holds of the model, `partial` when the code disagrees with it or only a part is proved. The theorems are in `lean/Verif/Props`.

### C01 Prefixed names survive print and parse

* Approach: Strings as `List Char`; parsers as functions to `Except NameError`. Induction on the string (position of first ':').
* Status: proved.
* `C01_print_parse` (PName.lean): C01, text to value to text: what is accepted prints as it was.
* `C01_parse_print` (PName.lean): C01, value to text to value: for any namespace and name their own parsers produce, the printed prefixed name parses to the pair.
* `C01_parts` (PName.lean): C01 for the parts.
* `C01_disjoint` (PName.lean): C01 for prefixed names (`PrefixedName`, a namespace or a local name): the two kinds of text never overlap.

### C02 A prefixed name has one reading

* Approach: Same model; iff with an existential over decompositions, plus uniqueness.
* Status: proved.
* `C02_accepts_iff` (PName.lean): C02: accepted exactly when it is a valid namespace followed by a valid name.
* `C02_unique` (PName.lean): C02: there is only one way to read a text as namespace and name, and the namespace ends at the first `':'`.
* `C02_errors` (PName.lean): C02: the documented errors.

### C03 Name and namespace validators match the SPARQL/Turtle grammar

* Approach: W3C productions as an independent inductive/boolean spec. Name: full equality. Namespace: expected disagreement (trailing '.'): negation by witness and a partial theorem.
* Status: partial. Names: equality with PN_LOCAL. Namespaces: fails, dots may stand before the colon (C03_namespace_fails); C03_namespace_iff says exactly what is accepted.
* `C03_namespace_iff` (Exact.lean): C03 for namespaces, exactly: dots may stand before the colon, after a prefix of the production.
* `C03_name` (PName.lean): C03 for names: accepted exactly when in the W3C production.
* `C03_namespace_partial` (PName.lean): C03 for namespaces, what holds: every string of the production is accepted, and every accepted string is in the production unless its prefix ends in `'.'`. Missing: the code also accepts prefixes that end in `'.'`.
* `C03_namespace_fails` (PName.lean): C03 for namespaces fails: `"a.:"` is accepted but not a `PNAME_NS`.

### C04 Namespaces can be named with or without the colon

* Approach: Direct equational proofs.
* Status: proved.
* `C04_colon_optional` (PName.lean): C04: a prefix may be given with or without the colon.
* `C04_name_string` (PName.lean): C04: the bare name of a namespace built from a bare prefix is the prefix (none for the empty prefix); asking for it does not panic.
* `C04_name_string_total` (PName.lean): C04: no namespace that can be built panics when asked for its bare name.
* `C04_is_default` (PName.lean): C04: default exactly for the empty prefix.
* `C04_qualify` (PName.lean): C04: qualifying a name prints prefix, colon, name; as CURIE in brackets.

### C05 Splitting an IRI and making the name again restores the IRI

* Approach: IRI = its serialised text, components found by RFC 3986 splitting; percent-encoding modelled. Expected: false for `http://h/a#`; negation plus partial.
* Status: partial. Fails for IRIs with an empty fragment (C05_fails). C05_iff says exactly when it holds. C05_name_iff says exactly which IRIs have which name; C05_parts that namespace and name go together and what they make.
* `C05_split_makeName_partial` (Iri.lean): C05, what holds: splitting and making the name again restores the IRI, unless the IRI ends in an empty fragment. Missing: IRIs with an empty fragment, for which the code moves the name into the fragment.
* `C05_fails` (Iri.lean): C05 fails for `http://h/a#`: it splits into `http://h/#` and `a`, which make `http://h/#a`.
* `C05_iff` (IriSplit.lean): C05, exactly: an IRI that splits is restored if and only if it does not end in an empty fragment.
* `C05_parts` (IriSplit.lean): C05: an IRI has a namespace if and only if it has a name; made in the namespace the name is the IRI, unless that ends in an empty fragment.
* `C05_name_iff` (IriSplit.lean): C05: the name is the fragment if there is one that is not empty; otherwise, if there is no query, it is what follows the last slash of an absolute path. An IRI has a name if and only if this is one.

### C06 Making a name and splitting returns the namespace and the name

* Approach: As C05. Expected false for non-ASCII names; negation plus partial for ASCII names.
* Status: partial. Fails for non-ASCII names, IRIs with a fragment and opaque IRIs (three witnesses). C06_iff says exactly when it holds.
* `C06_makeName_split_partial` (Iri.lean): C06, what holds: a namespace that ends in `#` (empty fragment), or a hierarchical one that ends in `/` without fragment, and a name in ASCII. Missing: non-ASCII names (percent-encoded on the way), a namespace with a non-empty fragment, opaque namespaces.
* `C06_fails_nonAscii` (Iri.lean): C06 fails for names outside ASCII: `http://h/` and `é` make `http://h/%C3%A9`, which does not split.
* `C06_fails_fragment` (Iri.lean): C06 also fails in ASCII: `http://h/#a` looks like a namespace, and making `b` in it replaces `a`.
* `C06_fails_opaque` (Iri.lean): C06 also fails for opaque IRIs: `urn:a/` looks like a namespace, and the IRI made in it makes `split` panic.
* `C06_iff` (IriSplit.lean): C06, exactly: of the names made in a namespace, those that split into the namespace and the name again are the names in ASCII, in a namespace that ends in `#` or that is hierarchical and has no fragment.

### C07 Namespace-looking IRIs accept names and do not themselves split

* Approach: As C05. Expected disagreement for `http://h/#a`; negation plus the parts that hold.
* Status: partial. The no-split part fails for http://h/#a; C07_no_split_iff says exactly which IRIs do not split. The rest is proved.
* `C07_no_split_iff` (Exact.lean): C07, third part, exactly: when an IRI, like a namespace or not, does not split. Without a text after `#`, the path has to be empty, to end in `/`, to be followed by a query, or to end in a segment that is no name; so `http://h/a#` splits, and looks like a namespace.
* `C07_namespace_accepts_names` (Iri.lean): C07, first part: an IRI that looks like a namespace accepts every name.
* `C07_split_namespace` (Iri.lean): C07, second part: the namespace part of a split looks like a namespace.
* `C07_no_split_partial` (Iri.lean): C07, third part, what holds: without a fragment, looking like a namespace and splitting exclude each other.
* `C07_no_split_fails` (Iri.lean): C07 fails: `http://h/#a` looks like a namespace and splits.
* `C07_looks` (Iri.lean): C07: an IRI looks like a namespace exactly when its only `#` is its last character, or its path ends in `/` and there is no query.

### C08 Splitting an IRI never panics

* Approach: `split` returns a panic value where the code unwraps `None`. Negation for opaque IRIs, exact characterisation of the panic.
* Status: partial. split panics for opaque IRIs; exact characterisation C08_panic_iff.
* `C08_panic_iff` (Iri.lean): C08: exactly which IRIs make the three functions panic: opaque ones whose path does not end in `/`, without query and without a non-empty fragment.
* `C08_no_panic_partial` (Iri.lean): C08, what holds: IRIs with an authority or an absolute path never panic.
* `C08_fails` (Iri.lean): C08 fails: `urn:isbn` panics.

### C09 Printing and parsing an IRI gives the same IRI

* Approach: `Url::parse` is a parameter with the assumption that a serialised URL parses to itself.
* Status: proved.
* `C09_parse_display` (Iri.lean): C09: both text forms of an IRI parse to it. `parse` stands for `Url::parse`; assumed of it is that the serialisation of a URL parses to that URL.
* `C09_brackets` (Iri.lean): C09: only a pair of brackets around the whole text is removed before parsing.

### C10 A prefix map is always one-to-one

* Approach: Map = list of pairs, invariant by induction over an operation list.
* Status: proved.
* `C10_one_to_one` (PrefixMap.lean): C10: in every map a client can have, prefix lookup and IRI lookup are inverse to each other, so the mapping is one-to-one; the listing has no repetition on either side, is sorted by prefix, and lists exactly the mappings that lookup finds.

### C11 A prefix map returns the last mapping given

* Approach: Refinement to a partial function with the eviction rule.
* Status: proved.
* `C11_insert` (PrefixMap.lean): C11, insertion: the prefix gives the IRI; any other prefix gives what it gave before, unless that was the same IRI, in which case it gives nothing.
* `C11_insert_prefix` (PrefixMap.lean): C11, insertion seen from the IRI side.
* `C11_remove` (PrefixMap.lean): C11, removal: exactly the mapping of the prefix is gone.
* `C11_other` (PrefixMap.lean): C11, the remaining operations in terms of these: the default namespace is the prefix `":"`, clearing removes everything, and length and emptiness count the mappings.

### C12 Compressing an IRI loses nothing

* Approach: C10 + C05 (the partial form carries over).
* Status: partial. Fails for IRIs ending in '#' (C12_fails). C12_iff says exactly when it holds.
* `C12_iff` (IriSplit.lean): C12, exactly: an IRI that is compressed expands to itself if and only if it does not end in an empty fragment.
* `C12_compress_expand_partial` (PrefixMap.lean): C12, what holds: compressing loses nothing for every IRI that does not end in an empty fragment. Missing: IRIs ending in `#` (see `C05_fails`).
* `C12_fails` (PrefixMap.lean): C12 fails for an IRI ending in an empty fragment.

### C13 Expanding a prefixed name can be undone

* Approach: C10 + C06.
* Status: partial. Fails for non-ASCII names (C13_fails). C13_iff says exactly when it holds.
* `C13_iff` (IriSplit.lean): C13, exactly: the expansion of a prefixed name compresses to the name again if and only if the name is in ASCII and the prefix stands for an IRI that ends in `#`, or that is hierarchical and has no fragment.
* `C13_expand_compress_partial` (PrefixMap.lean): C13, what holds: expanding can be undone when the prefix stands for an IRI ending in `#` or a hierarchical one ending in `/`, and the name is in ASCII.
* `C13_fails` (PrefixMap.lean): C13 fails for a non-ASCII name.

### C14 Compress falls back to the full IRI and never invents a prefix

* Approach: Decision logic.
* Status: proved.
* `C14_compress_iriref` (PrefixMap.lean): C14: what compressing to a reference gives.
* `C14_panic` (PrefixMap.lean): C14: it panics exactly when splitting does.

### C15 Comparison of nodes, literals and statements is a total order

* Approach: Mutual inductive types for subject/object/statement; comparison functions as coded; total-order laws by mutual induction.
* Status: proved.
* `C15_literal` (Node.lean): C15: literals.
* `C15_dataType` (Node.lean): C15: data types.
* `C15_subject` (Node.lean): C15: subjects, with statements nested to any depth.
* `C15_object` (Node.lean): C15: objects, with collections and statements nested to any depth.
* `C15_collection` (Node.lean): C15: collections.
* `C15_statement` (Node.lean): C15: statements.
* `C15_order_is` (Node.lean): C15: the order is that of the kinds first; a subject sorts as the object it converts to; statements are ordered by subject, then predicate, then object; collections as lists.

### C16 Subject and object conversions are inverse

* Approach: Case analysis.
* Status: proved.
* `C16_subject_round_trip` (Node.lean): C16: a subject made an object and back is the same subject.
* `C16_object_round_trip` (Node.lean): C16: an object turns into a subject exactly when it is neither a literal nor a collection, and that subject turns back into the object.
* `C16_subject_kinds` (Node.lean): C16: exactly one kind of subject holds, and the accessors give the value.
* `C16_object_kinds` (Node.lean): C16: exactly one kind of object holds, and the accessors give the value.
* `C16_components` (Node.lean): C16: setting a component sets that component and no other; a statement is nested when its subject or its object is a statement.

### C17 String escaping is reversible and safe

* Approach: Rust `{:?}` escaping with the printable-character test a parameter; an unescape function as spec.
* Status: proved.
* `C17_reversible` (Literal.lean): C17: removing the escapes gives the string back, whatever characters the standard library takes for printable.
* `C17_injective` (Literal.lean): C17: different strings have different escaped forms.
* `C17_safe` (Literal.lean): C17: no unescaped quote, no dangling backslash, no line break, tab or NUL.
* `C17_unchanged` (Literal.lean): C17: exactly the strings of printable characters without quote and backslash are unchanged.

### C18 A literal keeps the text it was built from

* Approach: False as stated (constructor escapes); negation plus exact characterisation.
* Status: partial. False for strings with characters to escape; exact condition in C18_keeps_text_partial, recoverable always.
* `C18_keeps_text_partial` (Literal.lean): C18, what holds: exactly for the strings that have nothing to escape the literal keeps its text and compares equal to it.
* `C18_recoverable` (Literal.lean): C18: nothing is lost, the string can be recovered from the lexical form, and the data type and language are kept.
* `C18_fails` (Literal.lean): C18 fails for a string with a quote.

### C19 Literals of integers and booleans compare like the values

* Approach: Decimal rendering as coded by std (`toDigits`); injectivity.
* Status: proved.
* `C19_int` (Literal.lean): C19, integers: the literal of a value is equal to a value of the same type exactly when it is that value, and to no value of another type.
* `C19_bool` (Literal.lean): C19, booleans.
* `C19_bool_text` (Literal.lean): C19: the literals of the truth values have the texts of XML Schema and its type, and equal just these values.
* `C19_other_types` (Literal.lean): C19: a literal of another type, or without type, equals no boolean and no integer, whatever its text.
* `C19_distinct` (Literal.lean): C19: literals of different values differ, and integers are never booleans.

### C20 Hex encoding of bytes can be decoded

* Approach: Byte list model; negation plus the exact set of lengths that work.
* Status: partial. False unless there is exactly one byte; C20_hex_partial is exact. Base 64 literals are tagged hex binary. C20_decode_iff and C20_error_iff say exactly which texts are decoded, to which bytes, and which piece an error names; C20_others the same for other types.
* `C20_decode_iff` (Hex.lean): C20, exactly, what a literal of type `xsd:hexBinary` is decoded to: its text consists of pieces with a space between any two, each of two digits or a plus sign and a digit, and the bytes are theirs.
* `C20_error_iff` (Hex.lean): C20, exactly, the error: it names the first piece that is no byte, and how many were before it.
* `C20_others` (Hex.lean): C20: literals that are of neither type are no bytes, and those of the other are what the decoder makes of them.
* `C20_hex_partial` (Literal.lean): C20, what holds: the bytes come back exactly when there is one of them; otherwise the conversion is the error naming the whole text.
* `C20_fails` (Literal.lean): C20 fails for two bytes.
* `C20_encode` (Literal.lean): C20: what the encoder writes is two upper case digits per byte, and it is injective.
* `C20_base64_fails` (Literal.lean): C20: bytes encoded in base 64 are never decoded as base 64, because the literal is tagged as hex binary.

### C21 Data types survive conversion to an IRI and back

* Approach: Finite type plus `Other`; negation plus partial.
* Status: partial. False for seven built-in types; C21_round_trip_partial is exact.
* `C21_round_trip_partial` (Literal.lean): C21, what holds: it comes back exactly when it is a built-in type that is not one of the seven forgotten ones, or another IRI than those of the recognised types.
* `C21_fails` (Literal.lean): C21 fails for dates.
* `C21_iri_kept` (Literal.lean): C21, the other direction: the IRI is never changed.
* `C21_iris` (Literal.lean): C21: the IRIs are those of the vocabulary functions named in the code.

### C22 Durations compare like the values

* Approach: Negation for all durations.
* Status: partial. False for every duration; injectivity of the text is proved.
* `C22_fails_always` (Literal.lean): C22 fails, and not only for some durations: no duration ever equals the literal made of any duration.
* `C22_equals` (Literal.lean): C22, which literals do compare equal to a duration: those of type `xsd:duration` whose text is the number of nanoseconds in digits, which is no text of that type, and no other.
* `C22_fails` (Literal.lean): C22 fails already for a second.
* `C22_injective_partial` (Literal.lean): C22, what holds: literals of different durations differ.

### C23 Printed literals say everything about the literal

* Approach: Text-level injectivity on escaped lexical forms.
* Status: proved.
* `C23_injective` (Literal.lean): C23: the explicit form determines lexical form, data type IRI and language, for literals whose lexical form is escaped and that do not have both a data type and a language (no constructor gives both).
* `C23_constructors` (Literal.lean): C23: every constructor meets the hypotheses of `C23_injective`.
* `C23_short_form` (Literal.lean): The short form does not determine the data type.

### C24 A graph is a bag or a set of statements

* Approach: Refinement to multiplicity functions, by induction over operation lists.
* Status: proved. The constructors and the conversions between sets and vectors of statements are described by `C24_constructors` and `C24_into`.
* `C24_constructors` (Graph.lean): C24: the graphs that the constructors make: empty, with the name that was given, with or without duplicates.
* `C24_into` (Graph.lean): C24: statements made unique are each there once, and none is lost; made not unique, all copies stay.
* `C24_bag` (Graph.lean): C24: starting from an empty graph, ordinary or unique, after any history the graph holds each statement as often as the history says.
* `C24_reports` (Graph.lean): C24: containment, emptiness and length say what the graph holds: a statement is contained when there is a copy of it, the graph is empty when there is a copy of none, and the length is the number of copies of the statements in any list that has all of them once.
* `C24_order` (Graph.lean): C24: an ordinary graph keeps the order in which statements were added.
* `C24_name` (Graph.lean): C24, the name and the mappings of a graph: those last set, whatever else is called.

### C25 A unique graph never holds a duplicate

* Approach: Invariant by induction over operation lists.
* Status: proved.
* `C25_unique_stays` (Graph.lean): C25: after any history, with every operation there is, a unique graph holds no statement twice and is still a unique graph; and an ordinary graph is still ordinary.
* `C25_insert_again` (Graph.lean): C25: inserting again what a unique graph holds changes nothing at all.

### C26 Removing duplicates keeps one of each

* Approach: Induction over the statement list.
* Status: proved.
* `C26_dedup` (Graph.lean): C26: whatever order the set of kept statements is visited in, after `dedup` the graph contains what it contained, each statement once, the returned list has every surplus copy, and a second `dedup` returns nothing and keeps the statements. Name and mappings stay.

### C27 Removing all statements for a subject

* Approach: Code is inverted; exact behaviour proved and negation.
* Status: partial. The code is inverted: C27_inverted is exact, C27_fails_always shows it is wrong for every non-empty graph.
* `C27_inverted` (Graph.lean): C27, what the code does: it keeps exactly the statements with the subject, in order, and returns the others.
* `C27_fails` (Graph.lean): C27 fails.
* `C27_fails_always` (Graph.lean): C27 fails for every graph that is not empty, whatever the subject.
* `C27_partition_partial` (Graph.lean): C27, what holds: no statement is lost or made up, the kind, name and mappings stay, and kept and returned statements are told apart by having the subject.

### C28 Pattern matching with wildcards

* Approach: Exact behaviour for full patterns; negation for wildcards.
* Status: partial. False when a component is not given (result is empty); exact in C28_matches_partial. C28_iff gives the exact condition.
* `C28_fails` (Graph.lean): C28 fails: a component that is not given matches nothing.
* `C28_matches_partial` (Graph.lean): C28, what holds: with all three given the result is what it should be; with one missing the result is empty; and never is a statement listed twice.
* `C28_iff` (Graph.lean): C28, exactly: a pattern finds the statements that agree with it when it gives all three parts, or when no statement agrees with it.

### C29 Graph projections are exact

* Approach: Membership iff plus Nodup.
* Status: proved.
* `C29_projections` (Graph.lean): C29: each projection has exactly the components of the statements held, once each.

### C30 A graph reports the features it has

* Approach: Inverted flag; negation for all graphs.
* Status: partial. Inverted for every graph (C30_fails_always).
* `C30_fails_always` (Graph.lean): C30 fails for every graph: support for duplicates is reported exactly by the graphs that do not have it.
* `C30_fails` (Graph.lean): C30 fails: the empty graph and any statement.
* `C30_features_partial` (Graph.lean): C30, what holds: every graph reports RDF-star, no graph reports anything but these two.

### C31 A data set is a map from name to graph

* Approach: Refinement to a partial function; invariant that key = name; graph_mut excluded, with witness of what it breaks.
* Status: proved.
* `C31_map` (DataSet.lean): C31: after any history, what is found under a name is the last graph inserted with that name and not removed since, as then modified in place; each name occurs once and every graph is stored under its own name.
* `C31_queries` (DataSet.lean): C31: the queries agree with what is found.
* `C31_fromIter` (DataSet.lean): C31: making a data set of a list of graphs is inserting them one after another.
* `C31_rename_in_place` (DataSet.lean): C31: what is not covered: renaming a graph in place (through `graph_mut`) leaves it under its old name, for every data set that has a graph under that name.

### C32 A collection expands to a well formed RDF list

* Approach: Counter-threaded generator; reader `readList` as spec; induction over the list.
* Status: proved.
* `C32_terms` (Expand.lean): The vocabulary functions used are the terms of the RDF vocabulary.
* `C32_is_list` (Expand.lean): The statements of an expanded collection are a well formed list of its members.
* `C32_one_reading` (Expand.lean): The list has no other reading.
* `C32_size` (Expand.lean): Three statements and one new node for each member.
* `C32_cells` (Expand.lean): The cells are the new nodes, each used for one member, in order.
* `C32_subjects` (Expand.lean): Every statement is about one of the new nodes.

### C33 A reified statement can be read back

* Approach: Counter-threaded generator; reader with depth recursion as spec.
* Status: partial. False when a label in the statement is also generated (C33_fails); with fresh labels C33_read_back_partial reads back statements of any depth. C33_iff: a reified statement is read back exactly when no blank node outside its collections has one of the labels the reification will generate.
* `C33_fails` (Expand.lean): It fails when a label in the statement is one of the new ones: the labels of the code are `B0`, `B1`, …, and those are valid labels to use.
* `C33_read_back_partial` (Expand.lean): Labels that are not among the new ones: every statement can be read back, nested to any depth, collections included.
* `C33_nodes` (Expand.lean): One new node for each statement, nested ones included.
* `C33_size` (Expand.lean): Four statements for each statement, and all of them about the new nodes.
* `C33_iff` (ReifyExact.lean): C33, exactly: a statement can be read back if and only if no blank node in it, outside collections, has one of the labels that are made for it.

### C34 A simplified graph has only simple statements

* Approach: Negation by witness (nested collection; statements at both ends), partial for graphs without these.
* Status: partial. False for statements nested at both ends or in collections; C34_exact_partial is an exact condition, the rest (order, name, read back) is proved.
* `C34_exact_partial` (Expand.lean): Exactly the graphs for which the result has only simple statements: nested at one end of a statement only, no collections in nested statements, nothing nested in collections.
* `C34_fails` (Expand.lean): A statement nested at both ends keeps the nested object.
* `C34_fails_collection` (Expand.lean): A collection in a collection also stays.
* `C34_name` (Expand.lean): The name is kept.
* `C34_not_kept` (Expand.lean): The prefixes are not kept: they are those of a new graph; duplicates are allowed.
* `C34_simple_kept` (Expand.lean): Simple statements are kept, in order.
* `C34_unchanged` (Expand.lean): A graph of simple statements has the same statements, and no new nodes are made.
* `C34_nested_subject` (Expand.lean): A statement about a statement becomes one about a node from which the nested statement can be read back, when labels are new and the predicate is not itself `rdf:subject` and the like.
* `C34_nested_object` (Expand.lean): The same for a statement that has a statement as its object.
* `C34_collection` (Expand.lean): A collection becomes a list of its members.

### C35 Skolemizing replaces every blank node consistently

* Approach: Fresh supply parameter assumed injective; negation for nested blanks and lost name.
* Status: partial. Name and prefixes are dropped and nested blank nodes kept; consistency for the others in C35_consistent_partial, exact conditions in C35_no_blanks and C35_error. C35_iff says exactly which graphs are skolemized as stated.
* `C35_fails` (Expand.lean): The name is lost.
* `C35_fails_nested` (Expand.lean): Blank nodes in nested statements stay.
* `C35_consistent_partial` (Expand.lean): Blank nodes that are the subject or the object of a statement are replaced, each by one IRI everywhere, different ones by different IRIs, all made from the base; nothing else changes and the order is kept.
* `C35_no_blanks` (Expand.lean): The result has no blank nodes exactly when none were nested.
* `C35_error` (Expand.lean): It fails exactly for a base that cannot be joined with a path, when there is something to replace.
* `C35_not_kept` (Expand.lean): Name and prefixes are those of a new graph, whatever they were.
* `C35_iff` (Expand.lean): C35, exactly, with a base that can be joined with a path: no nested blank nodes, no name, and the prefixes of a new graph.

### C36 A resource builder produces the statements it was told

* Approach: HashMap order a parameter; exact description; negation for nested resources and numbering.
* Status: partial. False: a nested resource is linked to its parent itself and members are numbered from 0 (two witnesses); everything else at any depth in C36_literals, C36_containers_partial, C36_nested_partial. C36_iff says exactly which resources become what they were told. `C36_isResource` says which resources are named ones.
* `C36_fails` (Resource.lean): `a b [c]`: the statement links the resource to itself.
* `C36_fails_members` (Resource.lean): Members are numbered from 0, so the last one has no number counted from 1.
* `C36_insert` (Resource.lean): Adding a value keeps the others and the subject.
* `C36_entries` (Resource.lean): A predicate has one entry, however often it is used.
* `C36_predicate` (Resource.lean): A `Predicate` adds all its values.
* `C36_literals` (Resource.lean): A literal value, at any depth, has its statement.
* `C36_containers_partial` (Resource.lean): A container, at any depth, has a node of its own with its kind and exactly its members, the member at position `i` (from 0) under `rdf:_i`.
* `C36_nested_partial` (Resource.lean): A nested resource, at any depth, has all its statements, but the link goes to the resource it is nested in.
* `C36_nothing_else` (Resource.lean): There are no other statements: their number is exactly that of the values, containers and members, and each is about a resource within or a container node.
* `C36_kinds` (Resource.lean): Kinds have the terms of the vocabulary.
* `C36_isResource` (Resource.lean): C36: a resource with a name is one whose subject is an IRI; one made without a name is not.
* `C36_instance_of` (Resource.lean): `instance_of` makes an individual.
* `C36_individual` (Resource.lean): An individual is a resource with a value for `rdf:type`, when no entry is empty.
* `C36_iff` (ResourceExact.lean): C36, exactly: a resource that uses no numbered predicate itself is turned into what it and all within it were told if and only if no container within has a member and each resource that is the value of another has the same subject.

### C37 Blank node labels are faithful

* Approach: Generator as counter; negations by witness.
* Status: partial. False: the prefix stays in the label and generated labels can be named by the user; exact behaviour in C37_labels_partial and C37_prefix_kept. C37_iff: the statement holds only if no label is accepted at all.
* `C37_fails` (Node.lean): C37 fails in both ways, for every test that accepts a label `a` or a label `B0`: the two spellings give different nodes, and a user may name a generated node.
* `C37_prefix_kept` (Node.lean): C37: the same text with and without the prefix is accepted alike but is never the same node, and the one with the prefix prints with two prefixes.
* `C37_iff` (Node.lean): C37, exactly: only if no label is accepted at all.
* `C37_labels_partial` (Node.lean): C37, what holds: texts that are accepted are kept; a label without prefix prints as `_:` and the label, as subject and as object; generated nodes differ from each other; and a user's label clashes with a generated node only when it is `B` and a decimal number.

### C38 N-Triples written can be read back

* Approach: Writer over arbitrary visiting orders; reader is a hand transcription of the PEG grammar; parse(print) by induction over lines.
* Status: partial. The full statement fails for the way IRIs now print (C38_fails, C38_fails_bracketed: no non-empty document is read) and, with bare IRIs, for texts that need escapes, known types and unquoted numbers. Proved: exactly what is read for every readable graph (C38_reads) and that it comes back if and only if no literal is changed (C38_iff).
* `C38_reads` (NTriples.lean): C38, what reading gives in general: every statement of a graph of readable ones, with the texts of literals escaped once more and their types replaced by unknown ones.
* `C38_iff` (NTriples.lean): C38, when a graph of readable statements comes back: exactly when no literal is changed by reading.
* `C38_roundtrip_partial` (NTriples.lean): C38, what holds: a graph whose literals have texts that need no escapes, and no type or an unknown one, comes back from what is written for it, when IRIs print without brackets.
* `C38_fails_escape` (NTriples.lean): C38 fails for a text with a quote, with or without forced quotes: it is escaped again.
* `C38_fails_type` (NTriples.lean): C38 fails for a string with its type: the type read is an unknown one.
* `C38_fails_bare` (NTriples.lean): C38: a boolean or number is written without quotes, and then the document is refused, unless the text of the literal starts like another term.
* `C38_fails_bracketed` (NTriples.lean): C38: when IRIs print with brackets of their own, no document of statements is read.
* `C38_fails` (NTriples.lean): So C38 fails altogether then.

### C39 Reading N-Triples never panics

* Approach: Reader result type has a panic case; negation plus partial.
* Status: partial. Fails for a numeric escape that names no character (C39_fails). Proved exactly, for N-Triples and N-Quads: reading panics if and only if the text is a document and the first term that cannot be read, in the first statement that cannot, is an IRI with such an escape (C39_iff, C39_quads_iff); never for a text whose escapes all name characters (C39_good_escapes_partial).
* `C39_iff` (NTExact.lean): C39: reading N-Triples panics exactly for a text that is a document, when the first statement that cannot be read, and its first term that cannot, is an IRI with an escape that names no character.
* `C39_quads_iff` (NTExact.lean): C39 for N-Quads.
* `C39_fails` (NTriples.lean): C39 fails for an escape that names no character.
* `C39_good_escapes_partial` (NTriples.lean): C39, what holds: without such escapes neither reader panics.

### C40 N-Triples output lists each statement once

* Approach: Permutation statement over arbitrary visiting orders.
* Status: proved.
* `C40_lines` (NTriples.lean): C40: the output is a line for each statement of the simplified graph, once, and nothing else.
* `C40_simple` (NTriples.lean): C40 for graphs of simple statements: a line for each of the graph's own statements.
* `C40_quads` (NTriples.lean): C40 for data sets: the output is, graph by graph, a line for each statement of the simplified graph, once, with the name of the graph; labels that were given out for one graph are not given out again for a later one.

### C41 N-Quads written can be read back

* Approach: As C38 with graph labels.
* Status: partial. Fails for any statement in the default graph (C41_fails_default) and when IRIs print with brackets (C41_fails_bracketed). With bare IRIs: C41_reads_partial says what is read, C41_iff exactly when the data set comes back.
* `C41_iff` (Exact.lean): C41, exactly, with bare IRIs: a data set comes back, but for its empty graphs, if and only if its default graph is empty and reading changes no literal.
* `C41_reads_partial` (NTriples.lean): C41, what reading gives in general: for a data set without default graph, the graphs that are not empty, under their names, with the statements as `C38_reads` gives them.
* `C41_roundtrip_partial` (NTriples.lean): C41, what holds: a data set without default graph, whose literals have texts that need no escapes and no type or an unknown one, comes back but for its empty graphs, when IRIs print without brackets.
* `C41_fails_default` (NTriples.lean): C41: a data set with statements in its default graph is never read back.
* `C41_fails_bracketed` (NTriples.lean): C41: when IRIs print with brackets of their own, no data set with a statement is read.
* `C41_fails` (NTriples.lean): C41 fails in either style, already for one statement of IRIs in the default graph.

### C42 Layout in N-Triples does not matter

* Approach: Layout grammar as an inductive relation; induction over tokens.
* Status: proved.
* `C42_layout` (NTriples.lean): C42: the same terms in any two layouts read the same, as N-Triples.
* `C42_layout_quads` (NTriples.lean): C42 for N-Quads.
* `C42_matched` (NTriples.lean): C42 is not about errors: a document of valid lines is matched, and line by line.

### C43 RDF/JSON written can be read back

* Approach: JSON at value level (serde_json text layer trusted); negation plus partial.
* Status: partial. Fails in either style: the label of a blank node object loses two bytes (C43_fails), is refused or panics when that is impossible (C43_fails_blank), and with IRIs in brackets no graph with an IRI as subject is read (C43_fails_bracketed). Proved: exactly what is read for every readable graph (C43_reads) and that it comes back if and only if no object is blank and no literal is changed (C43_iff).
* `C43_reads` (Json.lean): C43, what reading gives in general, in either style of printing IRIs.
* `C43_iff` (Json.lean): C43, when a graph of readable statements comes back: exactly when no object is a blank node and no literal is changed by reading.
* `C43_roundtrip_partial` (Json.lean): C43, what holds: graphs without blank nodes as objects whose literals need no escapes and have no type or a recognised one come back.
* `C43_fails` (Json.lean): C43 fails in either style for a blank node as object: its label is cut.
* `C43_fails_blank` (Json.lean): C43 fails whenever a blank node is an object whose label cannot be cut, or is no label when cut: the document is not read.
* `C43_fails_bracketed` (Json.lean): C43 fails for every graph with an IRI as subject when IRIs print in brackets, because no URL starts with a bracket.

### C44 Unicode escapes in IRIs are decoded

* Approach: Spec: list of segments; induction.
* Status: partial. Fails when the decoded text stands in angle brackets (C44_fails), and only then (C44_iff). Decoding itself is proved exact.
* `C44_iff` (Exact.lean): C44, exactly: a decoded text is parsed as it is if and only if it is not in angle brackets.
* `C44_decode` (NTriples.lean): C44: decoding replaces each escape by the character it names and nothing else, and is possible exactly when each escape names one.
* `C44_panic` (NTriples.lean): Reading panics exactly when the IRI cannot be decoded.
* `C44_fails` (NTriples.lean): C44 fails when the decoded text stands in angle brackets: those are removed.
* `C44_read_partial` (NTriples.lean): C44, what holds: all decoded texts not in angle brackets are parsed as they are.

### C45 TriG output holds the statements

* Approach: Negation: output is the same for any two data sets with the same names.
* Status: partial. Fails for every option: the statements are never written (C45_blind, C45_fails). Proved: the text says exactly the names of the graphs, in the order of the visit.
* `C45_blind` (Trig.lean): C45: the text depends on nothing but the names of the graphs, whatever they hold.
* `C45_fails` (Trig.lean): C45 fails with every option: a graph with a statement is written as the empty graph.
* `C45_names_partial` (Trig.lean): C45, what holds: the text tells the number of graphs, their names and the order in which they were visited, for names without blanks. Missing are the statements.

### C46 Compressed IRIs in Turtle expand to the IRI

* Approach: compress_iri as coded; spec reader of pnames.
* Status: partial. Fails for the way IRIs now print (C46_fails, C46_brackets: never right), for a base that the reference does not resolve against (C46_fails_base) and for a prefix name (C46_fails_prefix). Proved with bare IRIs for every absolute IRI (C46_absolute_partial) and for references relative to a base without dot segments (C46_relative_partial). C46_absolute_iff says exactly which IRIs without base are printed as what stands for them, C46_fails_dot that a prefix ending with a dot is accepted and printed though the grammar has none.
* `C46_fails` (Turtle.lean): C46 fails for the way the code prints IRIs: they stand in two pairs of brackets.
* `C46_brackets` (Turtle.lean): C46 in general, for IRIs in two pairs of brackets: nothing without a prefix or base can be read.
* `C46_fails_base` (Turtle.lean): C46 fails also with IRIs in one pair of brackets: what is cut off need not be a path.
* `C46_fails_prefix` (Turtle.lean): C46 fails also for a prefixed name, when the IRI ends with an empty fragment.
* `C46_absolute_partial` (Turtle.lean): C46, what holds without base: IRIs in one pair of brackets, no empty fragment at the end, and prefixes of the grammar.
* `C46_relative_partial` (Turtle.lean): C46, what holds with a base: the base ends its path with a slash and the rest is a plain relative reference.
* `C46_absolute_iff` (TurtleIri.lean): C46, exactly, without base and with prefixes that are accepted: what is printed for an IRI stands for it, unless a prefix is used although the IRI has an empty fragment or the prefix ends with a dot.
* `C46_fails_dot` (TurtleIri.lean): C46 fails also for a prefix that ends with a dot: it is accepted, but it is none of the grammar.

### C47 Predicates are written in group order, none lost

* Approach: chunk + stable sort; permutation and sortedness.
* Status: proved.
* `C47_grouping` (Turtle.lean): C47, grouping: every predicate as often as before, those for types first, then labels, then comments, then the others, each group in the order it had.
* `C47_written` (Turtle.lean): C47, writing: the predicates are written each exactly once and by place.

### C48 Turtle output names the predicate it writes

* Approach: Negation by witness and exact characterisation.
* Status: partial. Fails for rdfs:subClassOf and two more, which are written as rdf:type (C48_fails), and for the separator (C48_fails_separator). Proved for all other predicates. C48_iff: the verb is right exactly if the predicate is not among the mistyped ones.
* `C48_verb_partial` (Turtle.lean): C48, what holds: the verb denotes the predicate unless it is one of three.
* `C48_mistyped` (Turtle.lean): C48 in general, for the three: what is written is what is written for `rdf:type`.
* `C48_iff` (Turtle.lean): C48, exactly: the verb denotes the predicate if and only if it is none of the three.
* `C48_fails` (Turtle.lean): C48 fails for `rdfs:subClassOf`, written as `rdf:type`.
* `C48_separated_partial` (Turtle.lean): C48, the separator: the text of the verb ends with a space unless the predicate is one of the three.
* `C48_fails_separator` (Turtle.lean): C48, the separator can be missing: with a short prefix for RDFS and a long one for RDF the verb `rdf:type` written for `rdfs:subClassOf` ends without a space, and the object follows.

### C49 Indentation is balanced

* Approach: Invariant over operation lists.
* Status: partial. Fails: an outdent can end below the start, an offset is lost, width 0 panics. Proved for balanced sequences, and C49_writer for every object and block of the Turtle writer. C49_exact gives the depth after every run of operations and C49_iff says the property holds exactly when the width is positive and the offset less than the width.
* `C49_balanced_partial` (Indenter.lean): C49: nested sequences end at the right column, for every width but zero and every offset. Sequences that are not nested are reported when there is no offset, or one less than the width.
* `C49_fails` (Indenter.lean): C49 fails for an offset of at least the width: one outdent too many goes unnoticed and the text starts left of the offset.
* `C49_new` (Indenter.lean): C49: a new indenter is not indented and steps by two; the width is set without moving, the offset is where it starts.
* `C49_fails_offset` (Indenter.lean): In that case it never is noticed.
* `C49_fails_zero` (Indenter.lean): C49 also fails for the width zero, which `with_indent_width` lets through: every nested sequence with an outdent is taken for an unbalanced one.
* `C49_exact` (Indenter.lean): C49, exactly what happens for every sequence and every width but zero: it is reported if and only if at some time the text would start left of the margin.
* `C49_iff` (Indenter.lean): C49 holds for an offset and a width if and only if the width is not zero and the offset is less than it.
* `C49_reset` (Indenter.lean): C49: whatever was called before, a reset leads back to the start, and the text is indented by the offset.
* `C49_writer` (Turtle.lean): C49 for the writer: every object, at any depth, leaves the indentation as it was, and so does every block of a subject.

### C50 Graphviz output gives each node one identifier

* Approach: Node table as coded; negation and partial.
* Status: partial. Fails with another prefix (C50_fails_prefix), for collections and nested statements (C50_fails_collection), and for nodes displayed alike (C50_fails_numbers, C50_fails_uri). Proved with the usual prefix for graphs of IRIs, blank nodes and literals that are displayed differently, with an independent reader of the text; C50_keys_differ gives a sufficient condition. C50_iff says exactly which drawings are right: every node is drawable, different nodes have different keys, and the prefix is node_ or there are no statements; C50_fails_each: no graph with a collection or nested statement is drawn right. C50_all_iff drops the condition on the texts of the graph: the drawing is right if and only if, in addition, every label can stand in quotes (every value that the reader takes from a text can, so an unsafe label is never read back).
* `C50_drawing_partial` (Dot.lean): C50, what holds: the drawing is right with the usual prefix, for graphs without collections and nested statements in which no two nodes are displayed alike.
* `C50_keys_differ` (Dot.lean): C50: no two nodes are displayed alike when the literals are displayed in quotes.
* `C50_statement` (Dot.lean)
* `C50_fails_prefix` (Dot.lean): C50 fails: with another prefix edges still end at identifiers that begin with `node_`.
* `C50_fails_collection` (Dot.lean): C50 fails with the usual options: a collection and the node met after it get the same identifier.
* `C50_fails_numbers` (Dot.lean): C50 fails with the usual options: the number 1 of type `int` and that of type `long` share a node.
* `C50_fails_uri` (Dot.lean): C50 fails with the usual options: a resource and the `anyURI` literal that holds its text share a node.
* `C50_all_iff` (DotExact.lean): C50, exactly and for every graph: the drawing of a new writer is right if and only if every node is a blank node, a resource or a literal, no two nodes are displayed alike, the prefix is the usual one or nothing is to be drawn, and every label can stand in quotes.
* `C50_iff` (DotExact.lean): C50, exactly: for a graph whose IRIs and prefixes have no quotes and backslashes the drawing of a new writer is right if and only if every node is a blank node, a resource or a literal, no two nodes are displayed alike, and the prefix is the usual one or nothing is to be drawn.
* `C50_fails_each` (DotExact.lean): C50, collections and statements: no graph that has one of them as a node is drawn right.
* `C50_command_iff` (DotJson.lean): C50 for the command `draw` and every format it reads: what it writes draws the graph that was read if and only if every node is a blank node, a resource or a literal, no two are displayed alike, and every label can stand in quotes.

### C51 XML names split at the last separator

* Approach: Text function; existence proof.
* Status: partial. Fails always for the way IRIs now print, in brackets (C51_fails_brackets), and for bare texts with a local name outside ASCII (C51_fails), which the url crate does not produce. Proved: the exact condition for bare texts (C51_iff) and all of ASCII (C51_ascii_partial).
* `C51_fails_brackets` (Xml.lean): C51 fails for every IRI printed in brackets.
* `C51_fails_bracketed` (Xml.lean): C51 fails in the style the code prints IRIs in.
* `C51_fails` (Xml.lean): C51 fails for bare IRIs, if a local name is not ASCII: it panics or is split elsewhere.
* `C51_iff` (Xml.lean): C51 for bare IRIs: the split is right exactly if the local name is ASCII.
* `C51_ascii_partial` (Xml.lean): C51 for bare IRIs in ASCII, which are those that `url` makes; without a separator it panics.
* `C51_unique` (Xml.lean): The parts of an IRI are unique.

### C52 XML output names every property element by its predicate

* Approach: Element-name sequence; negation and partial.
* Status: partial. Fails whenever a property of a known namespace has two values (C52_fails_twice), and always in brackets. C52_iff: with bare IRIs it holds exactly otherwise.
* `C52_iff` (Exact.lean): C52, exactly, with bare IRIs: the elements for the objects of a property are named by it if and only if the namespace has no known prefix or there is one object at most.
* `C52_fails_twice` (Xml.lean): C52 fails whenever a property of a known namespace has two values.
* `C52_fails` (Xml.lean): C52 fails: two names of one person.
* `C52_fails_bracketed` (Xml.lean): C52 fails always when IRIs print in brackets.
* `C52_partial` (Xml.lean): C52 for bare IRIs, when the namespace has no prefix or there is one value.

### C53 Vocabulary members are well formed and distinct

* Approach: Finite tables generated from the sources, `decide +kernel`.
* Status: proved. C53_cache holds for any table, also one that names a term twice.
* `C53_members` (Names.lean): C53: every table can be built without a panic; the function of each member gives the IRI made of the namespace and the member's name, which is a valid name, and that IRI splits back into the two; different functions of a vocabulary give different IRIs.
* `C53_tables` (Names.lean): C53: no two tables share a prefix or a namespace.
* `C53_across` (Names.lean): C53, across tables: no IRI belongs to two vocabularies.
* `C53_cache` (Names.lean): C53, for any table: the cache holds the entry of every member, each name once, and nothing else.

### C54 Container member IRIs are distinct

* Approach: Injectivity of decimal rendering.
* Status: proved.
* `C54_member_distinct` (Names.lean): C54: numbered members differ from each other, from every member of the RDF vocabulary, and their qualified name says the same.
* `C54_member_qname` (Names.lean): C54: the qualified name of a numbered member is the prefix of the vocabulary, a colon, and the name that follows the namespace in the IRI.
* `C54_member_name` (Names.lean): C54: a numbered member splits into the RDF namespace and a valid name.

### C55 Predefined vocabularies are usable in prefix maps

* Approach: Tables transcribed from the sources; finite, `decide +kernel`.
* Status: proved.
* `C55_vocabularies` (PrefixMap.lean): C55: every predefined vocabulary has a valid prefix (so `prefix_as_namespace` does not panic) and an IRI that looks like a namespace and accepts names; prefixes and IRIs are pairwise different.
* `C55_default_common` (PrefixMap.lean): C55: the default and the common map exist (no panic) and hold what is documented.
* `C55_vocabulary_names` (PrefixMap.lean): C55: for every predefined vocabulary, any name in ASCII made in it compresses back to prefix and name, in every map that holds the vocabulary.

### C56 W3C vocabulary tables contain only W3C terms

* Approach: Tables against the term lists of the W3C namespace documents; negation, and the exact list of foreign members.
* Status: partial. Nine members are not W3C terms; C56_fails, the list is exact in C56_terms_partial. C56_terms_iff says exactly which members are no terms of W3C.
* `C56_fails` (Names.lean): C56 fails: `xsd:entity`, `xsd:NS`, five RDF terms in the RDFS table, `owl:version` and `owl:incompatible_with` do not exist.
* `C56_terms_partial` (Names.lean): C56, what holds: all members but the nine listed.
* `C56_terms_iff` (Names.lean): C56, exactly: the members that are not terms of W3C are the nine listed.

### C57 Vocabulary lists of the two crates agree

* Approach: Both tables compared over all entries, `decide +kernel`.
* Status: proved.
* `C57_agree` (Names.lean): C57: the vocabulary list of the IRI crate and the tables of the names crate agree: a prefix known to both stands for the same namespace, and a namespace known to both has the same prefix.

### C58 The text of a duration literal denotes the duration

* Approach: A reader of xsd:duration as spec; text as coded; exact condition on the nanoseconds.
* Status: partial. False unless the nanoseconds are 0 or have nine digits; exact in C58_duration_text_partial.
* `C58_duration_text_partial` (Literal.lean): C58, what holds: exactly when the nanoseconds are zero or have nine digits.
* `C58_fails` (Literal.lean): C58 fails for half a second written as five nanoseconds.

### C59 Literals of IRIs, names and language tags compare like the values

* Approach: Display style as parameter; equality of texts.
* Status: partial. Holds when IRIs print bare; false for the current Display of rdftk_iri (C59_fails). C59_iff says just when the statement holds.
* `C59_bare_partial` (Literal.lean): C59 holds for IRIs when they print bare, and for names and language tags in ASCII.
* `C59_fails` (Literal.lean): C59 fails when an IRI prints with its own angle brackets, as it now does.
* `C59_iff` (Literal.lean): C59, exactly: the printed form of the other IRI is compared with the escaped text.
* `C59_fails_always` (Literal.lean): C59: with angle brackets the literal of an IRI, which begins with no bracket, equals no IRI at all.
* `C59_names` (Literal.lean): C59 for names and language tags.
* `C59_types` (Literal.lean): C59: a literal equals an IRI, a name or a language tag if and only if it has the text and the type of one.
* `C59_convert` (Literal.lean): C59: converting the literal of an IRI back gives the IRI; a literal that is not of type IRI is refused.

### C60 Editing one component of an IRI leaves the others

* Approach: IRI text with RFC 3986 components; each edit followed by each accessor; induction over the text.
* Status: proved.
* `C60_fragment` (IriEdit.lean): C60: replacing the fragment keeps scheme, authority, path and query, and the fragment is the new one, encoded.
* `C60_no_fragment` (IriEdit.lean): C60: removing the fragment keeps all else, and putting it back gives the IRI.
* `C60_path` (IriEdit.lean): C60: replacing the path of a hierarchical IRI keeps scheme, authority, query and fragment, and the path is the new one, encoded. Without an authority the new path must not start with two slashes, as they would be taken for one.

### C61 Percent encoding of paths and fragments can be undone

* Approach: Percent decoder as spec; encoder as coded over UTF-8 bytes; induction.
* Status: proved. The same holds of opaque paths and the set for control characters.
* `C61_decode` (IriEdit.lean): C61: decoding what was encoded gives the text's bytes, whatever set of characters is encoded, when the text holds no percent sign.
* `C61_clean` (IriEdit.lean): C61: what is encoded holds none of the characters to be encoded.
* `C61_sets` (IriValid.lean): C61: the characters encoded in fragments and in paths are those of the URL standard.
* `C61_opaque` (IriValid.lean): C61: so are those encoded in opaque paths.

### C62 JSON layout does not matter

* Approach: JSON values, printer and reader on text; reader after printer by mutual induction.
* Status: proved.
* `C62_text` (Json.lean): C62: every value without numbers, at most 127 levels deep, is read back from its text, in either layout.
* `C62_layout` (Json.lean): C62: the layout has no influence on what is read, nor on whether anything is written.

### C63 RDF/JSON output does not depend on visiting order

* Approach: Two visiting orders of the same graph; the document is a sorted map; permutation lemmas.
* Status: proved.
* `C63_order` (Json.lean): C63: what is written does not depend on the order in which subjects and predicates are visited.

### C64 RDF/JSON is refused exactly for terms that cannot be expanded

* Approach: The error case of the writer followed through `simplify`; both directions.
* Status: proved.
* `C64_refuses` (Json.lean): C64: the writer fails exactly for the graphs with terms that cannot be expanded.

### C65 Reading RDF/JSON never panics

* Approach: Reader result with a panic case; negation and the exact condition.
* Status: partial. Fails for a blank node object with a label of one character (C65_fails). Proved exactly: reading panics if and only if the first thing in the document that cannot be read is a blank node object without two bytes to cut off (C65_iff), and gives a graph if and only if everything can be read (C65_read_iff).
* `C65_fails` (Json.lean): C65 fails: reading any graph with a blank node object of one character panics.
* `C65_no_panic_partial` (Json.lean): C65 for the texts in which every blank node object can be cut, and for texts that are no JSON.
* `C65_iff` (JsonExact.lean): C65: reading RDF/JSON panics exactly when the first thing in the document that cannot be read is a blank node object whose text has no two bytes to cut off.
* `C65_read_iff` (JsonExact.lean): C65: a graph is read exactly from an object all of whose subjects can be read.

### C66 RDF/JSON documents have the form of the W3C note

* Approach: W3C note as a relation between statement and member list; induction over the graph.
* Status: partial. Fails for every IRI as subject, which is written in brackets in either style. C66_iff says exactly for which graphs the form is right with bare IRIs, C66_bracketed_iff with brackets.
* `C66_iff` (Exact.lean): C66, exactly, with bare IRIs: the document has the form of the note if and only if no subject is an IRI and no object a blank node. The scheme of an IRI begins with a letter.
* `C66_bracketed_iff` (Exact.lean): C66 with IRIs in brackets: only the empty document has the form of the note.
* `C66_form_partial` (Json.lean): C66 with the names the code uses: what is written is exactly one value for each statement, under its subject and predicate. Missing from the full statement: IRIs as subjects are between brackets, and so are the others when IRIs print so; blank node objects lack their `_:`.
* `C66_fails` (Json.lean): C66 fails in either style: an IRI as subject is written between brackets.

### C67 Turtle output ends

* Approach: Writer with fuel; ends iff no cycle or chain that returns, by well-founded induction over the blank node graph.
* Status: partial. Fails for a blank node that is its own value (C67_fails) and panics for IRIs that cannot be divided (C67_panics). Proved: the exact condition with nested blank nodes (C67_ends_iff), and that the writer ends otherwise. C67_iff gives the exact condition when lines are not padded: every IRI of the graph is printed and, with nesting, there is no endless chain.
* `C67_ends_iff` (Turtle.lean): C67, exactly when: with nested blank nodes, the writer ends if and only if no blank node starts an endless chain; otherwise it goes deeper than any bound.
* `C67_ends_partial` (Turtle.lean): C67, what holds without nested blank nodes, or without endless chains: every graph whose parts can be printed is written, and more depth does no harm.
* `C67_iff` (Turtle.lean): C67, exactly: a graph is written if and only if all its parts can be printed and, with nested blank nodes, none of them starts an endless chain.
* `C67_fails` (Turtle.lean): C67 fails for a blank node that is its own value: the recursion has no end.
* `C67_panics` (Turtle.lean): C67, the other hypothesis: an IRI that cannot be divided into namespace and name makes the writer panic, here that of a URN.

### C68 Turtle output means the graph

* Approach: A Turtle reader written from the recommendation as spec; writer followed by reader, by induction over the text; negations for brackets and names.
* Status: partial. Fails for the way IRIs now print (C68_fails) and with bare IRIs for numbers, NaN, collections, nested blank nodes and literals of the type IRI. Proved with bare IRIs for every graph whose statements are printed as they are (C68_reads_back_partial), with an independent W3C reader, and that such graphs are written.
* `C68_reads_back_partial` (Turtle.lean): C68, what holds: when the statements are printed as they are, the text is read as exactly the triples of the graph.
* `C68_written_partial` (Turtle.lean): C68, such a graph is written, when `rdf:type` can be.
* `C68_fails` (Turtle.lean): C68 fails for the way the code prints IRIs: in two pairs of brackets.
* `C68_fails_number` (Turtle.lean): C68 fails also with IRIs in one pair of brackets: the type of a number is lost.
* `C68_fails_nan` (Turtle.lean): C68 fails for a number that is no number of Turtle.
* `C68_fails_collection` (Turtle.lean): C68 fails for collections: commas stand between the members.
* `C68_fails_nested` (Turtle.lean): C68 fails with nested blank nodes: a node with a label is written once with it and once without, and the reader takes them for two.
* `C68_fails_iri` (Turtle.lean): C68 fails for literals of the type IRI: they are read as IRIs.

### C69 Turtle output does not depend on hash order

* Approach: Two visiting orders; negation for the text, permutation of meaning otherwise.
* Status: partial. Fails when a type or label predicate divides others (C69_fails). Proved that subjects are in strict order (C69_subjects), that the text does not depend on the order of the sets for graphs in which nothing is left to it (C69_text_partial, C69_single_partial), and that the meaning is the same for the graphs of C68 and C129.
* `C69_fails` (Turtle.lean): C69 fails: predicates of the same group that another group divides are not sorted together.
* `C69_same_meaning_partial` (Turtle.lean): C69, what holds: for statements that are printed as they are, the texts mean the same whatever the order.
* `C69_subjects` (TurtleStable.lean): C69, subjects: those that are no blank nodes are written in their order, each once, whatever the order of sets.
* `C69_text_partial` (TurtleStable.lean): C69 for graphs that leave no choice: whatever the order in which sets are visited, the text is the same.
* `C69_single_partial` (TurtleStable.lean): C69, the simplest case: at most one blank node among the subjects, one predicate for each subject and one object for each subject and predicate.

### C70 Turtle output of nested statements describes the nested statement

* Approach: Negation by witness, exact description of what is written.
* Status: partial. Fails always: C70_outer shows that the node is described by the statement around it; C70_endless and C70_nested_subject show that the writer then never ends or panics.
* `C70_outer` (Turtle.lean): C70 in general: the blank node that replaces the nested statement has the subject and the predicate of the statement around it.
* `C70_fails` (Turtle.lean): C70 fails.
* `C70_endless` (Turtle.lean): C70, a consequence: a statement about a blank node with a nested object is never written with nested blank nodes, its replacement points back.
* `C70_nested_subject` (Turtle.lean): C70, the other case: a statement with a nested subject is never written at all.

### C71 N-Triples and N-Quads readers accept exactly the grammar

* Approach: W3C grammar as inductive relation; PEG model accepts iff the relation holds, both directions by induction.
* Status: partial. Fails: '[]' and '<' inside an IRI are accepted, two dots in a row in a label are refused, and a label takes what follows it where the grammar would end it (C71_fails, C71_fails_less, C71_fails_dots, C71_fails_greedy). Proved exactly, for N-Triples and N-Quads: a text is accepted if and only if it is a document of the grammar with these changes, and the lines hold what it says (C71_iff, C71_quads_iff, C71_unique).
* `C71_accepted_partial` (NTAccept.lean): C71, what holds: a text that is matched is a document of the grammar of the code, and the lines hold what the text says.
* `C71_accepted_quads_partial` (NTAccept.lean): C71 for N-Quads.
* `C71_fails` (NTAccept.lean): C71 fails: `[]` is accepted as a node.
* `C71_fails_less` (NTAccept.lean): C71, another difference: an IRI with `<` inside is accepted.
* `C71_fails_dots` (NTAccept.lean): C71, the last difference: the W3C grammar allows two dots in a row in a label, the code refuses them.
* `C71_iff` (NTExact.lean): C71: a text is matched exactly if it is a document of the grammar of the code in which each label is as long as it can be, and then the lines hold what it says.
* `C71_quads_iff` (NTExact.lean): C71 for N-Quads.
* `C71_unique` (NTExact.lean): A text has one reading only.
* `C71_fails_greedy` (NTExact.lean): Without the condition on labels a text may have the form of a document and not be matched: the label takes what follows it.

### C72 A Graphviz writer draws each graph alone

* Approach: State of the writer made explicit; second run compared with a first run.
* Status: partial. Fails: the writer keeps the nodes of earlier graphs (C72_fails). Proved: the second drawing has the edges of the second graph and the nodes of both. C72_iff: the second drawing is right exactly if each node of the first graph is a node of the second.
* `C72_both_partial` (Dot.lean): C72, what holds: the second drawing has the edges of the second graph, and the nodes of both.
* `C72_iff` (Dot.lean): C72, exactly: the second drawing is that of the second graph if and only if each node of the first is a node of the second.
* `C72_fails` (Dot.lean): C72 fails: the nodes of the first graph are drawn again with the second, here an empty one.

### C73 Drawing a graph does not panic

* Approach: Panic of `compress` followed to the writer; exact condition.
* Status: partial. Fails for predicates such as urn:x (C73_fails). Proved: it panics exactly if some predicate cannot be split.
* `C73_panics_partial` (Dot.lean): C73, what holds: drawing panics exactly if some predicate cannot be split.
* `C73_fails` (Dot.lean): C73 fails for the predicate `urn:x`.

### C74 XML output is well-formed with namespaces

* Approach: Well-formedness of event lists with scopes of prefixes as spec.
* Status: partial. Fails for every graph with IRIs in brackets (C74_fails_brackets) and for two values of a known property (C74_fails_twice). Ends always match starts (C74_balanced); C74_iff is the exact condition for flat documents with bare IRIs.
* `C74_iff` (Exact.lean): C74, exactly, for flat documents with bare IRIs: what is written is well formed if and only if no property of a known namespace has two values.
* `C74_fails_brackets` (Xml.lean): C74 fails for every graph when IRIs print in brackets.
* `C74_fails_twice` (Xml.lean): C74 fails for a property of a known namespace that has two values.
* `C74_fails` (Xml.lean): C74 fails in both layouts: a subject with two names.
* `C74_balanced` (Xml.lean): Every end has the name of the start it closes, in either style.
* `C74_partial` (Xml.lean): C74 for flat documents with bare IRIs, if no property of a known namespace has two values.

### C75 Flat XML output says the graph

* Approach: W3C RDF/XML grammar as relation from events to statements; induction over subjects.
* Status: partial. Fails as C74. C75_iff is the exact condition with bare IRIs: no property of a known namespace has two values; then each statement is said once. C75_unique: the independent reading Spec.RdfXml gives one list of statements for a document, up to how data types are held.
* `C75_iff` (Exact.lean): C75, exactly, with bare IRIs: a flat document says the statements of the graph if and only if no property of a known namespace has two values.
* `C75_fails` (Xml.lean): C75 fails with plain IRIs: a subject with two names.
* `C75_fails_bracketed` (Xml.lean): C75 fails in the style the code prints IRIs in.
* `C75_partial` (Xml.lean): C75 with bare IRIs, if no property of a known namespace has two values: the graph is written, and the document says its statements, each once.
* `C75_unique` (XmlNested.lean): C75, that a document says one list of statements, but for how data types are held: `Spec.RdfXml` is a function of the events.

### C76 RDF/XML round trip

* Approach: Writer followed by reader at event level; negations and what is read.
* Status: partial. Fails: types are lost (C76_fails), documents with IRI values are refused (C76_fails_resource), in brackets nothing is well formed. Proved: exactly what is read for literals and blank nodes (C76_reads_partial) and that steady literals come back. C76_iff: exactly, a graph of readable statements comes back from its flat document when its literals have no type and texts that are neither escaped nor blank, no object is a blank node, and at most one object is an IRI, that of the statement written last (after an rdf:resource the reader takes the properties that follow for node elements and refuses further descriptions).
* `C76_reads_partial` (Xml.lean): C76: a flat document of literals and blank nodes is read with exactly these changes: objects that are blank nodes become empty literals, types and white space alone are lost, and texts are escaped again.
* `C76_partial` (Xml.lean): C76 for graphs of literals without types, of texts that are neither escaped nor blank.
* `C76_fails` (Xml.lean): C76 fails: the type of a literal is lost.
* `C76_fails_bracketed` (Xml.lean): C76 fails for every graph when IRIs print in brackets.
* `C76_fails_resource` (Xml.lean): C76 fails whenever the last property of a description is an IRI and another description follows: the document is refused.
* `C76_iff` (XmlExact.lean): C76, exactly: a graph of readable statements, no subject of which has a label that the reader will make, comes back from its flat document just when its literals have no type and texts that are neither escaped nor blank, no object is a blank node, and at most one object is an IRI, that of the statement written last.

### C77 The XML reader follows the RDF/XML grammar

* Approach: Spec relation against the reader machine; negations, and equality for documents of two levels by induction over the derivation.
* Status: partial. Fails for types, blank nodes, rdf:ID, nested elements and inherited languages. Proved for all documents of node elements and property elements with text (C77_levels_partial) and rejections for elements inside empty properties and after text; C77_objects shows that no typed literal or blank object is ever read. C77_flat_iff: the same exact condition for every flat document without repeated statements, whoever wrote it.
* `C77_flat_partial` (Xml.lean): C77 for flat documents of literals without types, of texts that are neither escaped nor blank.
* `C77_objects` (Xml.lean): Whatever is read, no object is a blank node and no literal has a type but that of XML literals.
* `C77_fails` (Xml.lean): C77 fails: a type is not read.
* `C77_fails_blank` (Xml.lean): C77 fails: a blank node is not read as an object.
* `C77_fails_id` (Xml.lean): C77 fails: `rdf:ID` is not joined with `#`.
* `C77_fails_nested` (Xml.lean): C77 fails: an element inside a property is read, but not as its value.
* `C77_fails_language` (Xml.lean): C77 fails: a language is not handed down to the properties.
* `C77_flat_iff` (XmlExact.lean): C77, exactly, for flat documents that have no statement twice and no subject with a label that the reader will make.
* `C77_levels_partial` (XmlRead.lean): C77 for documents with typed or untyped node elements, which have a subject or are blank, with property attributes, and property elements with text; languages stand at property elements, subjects and bases are absolute, and texts are neither escaped nor white space alone.
* `C77_rejects_child` (XmlRead.lean): C77: whatever precedes it, an element inside a property element with `rdf:resource` is not read.
* `C77_rejects_mixed` (XmlRead.lean): C77: whatever precedes it, an element after text in a property element is not read.
* `C77_id_panics` (XmlRead.lean): C77: without a base in the document, `rdf:ID` is a panic.
* `C77_id_base` (XmlRead.lean): C77: with a base that can be read, the subject of `rdf:ID` is the base as printed followed by the name; with the brackets that is no IRI unless the parser takes texts that begin with a bracket.

### C78 The XML reader ends

* Approach: Fuel bound from the number of events; induction.
* Status: proved.
* `C78_ends` (Xml.lean): C78: the reader comes to an end on every document in which the elements are closed.
* `C78_written` (Xml.lean): C78 for what is found in any written document.

### C79 The XML reader does not panic

* Approach: Panic case; negation and exact condition.
* Status: partial. Fails for rdf:ID without base, names without namespace, Collection and other parse types. Proved for all documents without these. `C79_iff` says exactly when the reader panics: the events before some event are taken, and this event has one of eight faults, which are said of its name and attributes and of the kind of call that is open (`Spec.EventPanics`); what comes after does not matter (`C79_prefix`).
* `C79_fails` (Xml.lean): C79 fails: `rdf:ID` without a base.
* `C79_fails_attribute` (Xml.lean): C79 fails: an attribute without a namespace.
* `C79_fails_element` (Xml.lean): C79 fails: an element without a namespace.
* `C79_fails_parseType` (Xml.lean): C79 fails: collections, other parse types, and XML literals without an element.
* `C79_partial` (Xml.lean): C79 for documents whose names have namespaces, without `rdf:ID` and parse types but for resources.
* `C79_iff` (XmlPanic.lean): C79, exactly: the reader panics just if the events before some event are taken, and this one, for the call that is open then, has one of these faults: a strange parse type; `rdf:ID` without a base; a node element, property attribute or property element without a namespace; a collection; the end of an XML literal without an element, or one that cannot be written again.
* `C79_prefix` (XmlPanic.lean): C79: what follows the fault is not looked at: a document that goes on after it panics as well.
* `C79_safe` (XmlPanic.lean): C79: where no event has one of the faults, for whatever call, there is no panic; this has no condition on nesting.

### C80 Striped XML output says the graph

* Approach: Striped recursion with fuel; negation by a cycle of blank nodes, partial otherwise.
* Status: partial. Fails: unreached blank nodes are not written (C80_fails_lost), shared ones are written twice (C80_fails_shared), circular ones without end (C80_fails_endless). Proved equal to the flat style without blank nodes. C80_says: a nested document says exactly the statements that IRIs lead to. C80_iff: it says the graph, up to labels, exactly when every statement is about an IRI or a node one leads to and no blank node is the object of two statements. C80_ends_iff: the recursion ends exactly when no endless chain of blank nodes starts at an IRI.
* `C80_fails_lost` (Xml.lean): Statements about blank nodes that no statement about an IRI leads to are never written.
* `C80_fails` (Xml.lean): C80 fails: a statement about a blank node that nothing refers to is lost.
* `C80_fails_shared` (Xml.lean): A node that is the value of two properties is written twice, as two nodes without labels.
* `C80_fails_endless` (Xml.lean): A node that leads to itself is written for ever.
* `C80_partial` (Xml.lean): C80 for graphs without blank nodes, which are written alike in the two styles.
* `C80_says` (XmlNested.lean): C80, what is said: with the labels of the graph for the nodes without labels, the statements that IRIs lead to, and nothing else.
* `C80_iff` (XmlNested.lean): C80, exactly when: every statement is about an IRI or a node that one leads to, and no blank node is the object of two statements.
* `C80_ends_iff` (XmlNested.lean): C80, exactly when the writer ends: no statements lead from an IRI along blank nodes without end.

### C81 The XML writer does not panic

* Approach: Panic of `split_uri`; negation and exact condition.
* Status: partial. Fails for a predicate without '#' and '/' (C81_fails; C81_unwritten for every such graph). For the flat style C81_flat_iff says exactly when a document is written and C81_panics_iff exactly when the writer panics. C81_nested_iff says exactly when the nested style is written, in either style of IRIs: the walks from resources through blank nodes have a longest one, and on them predicates can be split and objects be written.
* `C81_fails` (Xml.lean): C81 fails for a predicate without a separator.
* `C81_unwritten` (Xml.lean): No graph with such a predicate is written.
* `C81_partial` (Xml.lean): C81 for graphs whose predicates are ASCII and have a separator.
* `C81_nested_iff` (XmlSize.lean): C81, exactly, for the nested style: with enough depth a graph is written if and only if, after expansion, the walks from resources through blank nodes do not get longer and longer, and on them every predicate can be split and no collection or statement is left.
* `C81_flat_iff` (XmlWrite.lean): C81, exactly, for the flat style: a graph is written if and only if, after expansion, no collection or statement is left inside a statement and every predicate can be split. The recursion ends in any case.
* `C81_panics_iff` (XmlWrite.lean): C81, exactly, for the flat style and ASCII predicates: the writer panics if and only if a predicate has no separator.

### C82 JSON documents are taken exactly by RFC 8259

* Approach: RFC 8259 as inductive relation on text; reader sound and complete by induction over the depth.
* Status: proved. C82_members: what is found under a name is the value given last.
* `C82_accepts` (JsonText.lean): C82: the reader of JSON takes the texts of RFC 8259 with at most 127 arrays and objects inside each other, for the value they have, and no other text.
* `C82_members` (JsonText.lean): What is found under a name in an object is the value that was given last with that name.
* `C82_rejects` (JsonText.lean): C82: what is not such a text is reported.
* `C82_one` (JsonText.lean): C82: a text has one value.
* `C82_blank` (JsonText.lean): C82: white space around a text makes no difference.
* `C82_depth` (JsonText.lean): C82: lists inside each other are read up to 127 and refused beyond.

### C83 N-Triples are read as what they say

* Approach: Meaning of grammar trees by the recommendation as relation; reader on any layout, iff.
* Status: partial. Fails for escapes in strings, which are kept as they stand and escaped once more (C83_fails). C83_iff: it holds exactly for the documents whose literals have nothing to escape; C83_reads says what is read otherwise.
* `C83_reads` (NTMeaning.lean): C83, what is read in general: what the document says, with the insides of the quotes as they stand and escaped once more.
* `C83_iff` (NTMeaning.lean): C83: a document is read as what it says if and only if no literal has anything to escape.
* `C83_means_partial` (NTMeaning.lean): C83, what holds: a document whose literals have nothing to escape is read as what it says.
* `C83_fails` (NTMeaning.lean): C83 fails: an escaped line end in a literal is read as a backslash and more.

### C84 N-Quads are read as what they say

* Approach: As C83 with graph names.
* Status: partial. Fails for any statement without a graph (C84_fails_default: always an error) and for escapes in strings. C84_iff: it holds exactly for the documents without these.
* `C84_fails_default` (NTMeaning.lean): C84: a document that says anything of the default graph is an error.
* `C84_reads` (NTMeaning.lean): C84, what is read if all statements are in named graphs: what the document says, with the insides of the quotes as they stand and escaped once more.
* `C84_iff` (NTMeaning.lean): C84: a document is read as what it says if and only if all its statements are in named graphs and no literal has anything to escape.
* `C84_means_partial` (NTMeaning.lean): C84, what holds: a document with all statements in named graphs and nothing to escape in its literals is read as what it says.
* `C84_fails` (NTMeaning.lean): C84 fails for any one triple of the default graph.

### C85 Every command returns

* Approach: Commands as a function to exit states; case analysis over representations.
* Status: partial. Fails: conversion from five representations and the namespace command always panic (C85_fails_source, C85_fails), conversion to JSON-LD and N3 panics whenever the input can be read (C85_fails_target). Proved for N-Triples without impossible escapes and four targets; C85_convert_iff reduces these targets to the readers and C85_xml_iff says exactly when conversion to XML panics.
* `C85_fails` (Cli.lean): C85 fails: the command for namespaces is not written.
* `C85_fails_source` (Cli.lean): C85: conversion from five of the eight representations panics on every input.
* `C85_reader` (Cli.lean): C85: when the reader of N-Triples or RDF/JSON panics, so does the conversion, and when it refuses the input, so does the conversion.
* `C85_fails_target` (Cli.lean): C85: conversion to two of the eight representations never succeeds; it fails exactly when the input cannot be read and panics when it can.
* `C85_convert_iff` (Cli.lean): C85: conversion to N-Triples, N-Quads, TriG or RDF/JSON panics exactly when reading does.
* `C85_nt_partial` (Cli.lean): C85, what holds: N-Triples without impossible escapes are converted to these, or refused.
* `C85_draw` (Cli.lean): C85: a diagram of a data set is refused without any output; three other representations panic on every input.
* `C85_refused` (Cli.lean): C85: an input that is no document of the representation is a failure of the command.
* `C85_success` (Cli.lean): C85: a command succeeds exactly with the text that the writer makes of the graph that was read.
* `C85_xml_iff` (XmlWrite.lean): C85 for RDF/XML: after reading, the command always ends; it panics exactly if reading does, or a predicate of the graph has no separator.

### C86 Conversion keeps the graph

* Approach: Reader after writer through the command; negations per representation, exact condition for N-Triples.
* Status: partial. Fails in the style the code prints IRIs in: N-Triples and RDF/JSON output is not read again (C86_fails_bracketed, C86_fails_json), N-Quads output never (C86_fails_quads), TriG output is empty (C86_fails_trig). C86_iff: with plain IRIs it holds for N-Triples exactly when no literal has anything to escape. C86_json_iff and C86_json_again_iff say exactly which graphs a conversion to RDF/JSON keeps, in either style.
* `C86_fails_trig` (Cli.lean): C86: conversion to TriG loses every statement, whatever was read.
* `C86_fails_bracketed` (Cli.lean): C86: N-Triples converted from N-Triples, in the style the code has: no document with a statement is read again.
* `C86_fails_quads` (Cli.lean): C86: N-Quads converted from N-Triples: no document with a statement is read, in any style.
* `C86_fails_json` (Cli.lean): C86: RDF/JSON converted from anything, in the style the code has: no graph with an IRI as subject is read again.
* `C86_iff` (Cli.lean): C86 for N-Triples and IRIs printed without brackets: the graph is kept if and only if no literal has anything to escape.
* `C86_keeps_partial` (Cli.lean): C86, what holds: with IRIs printed without brackets, the graph of an N-Triples document is kept if no literal has anything to escape.
* `C86_fails` (Cli.lean): C86 fails for N-Triples in either style.
* `C86_json_iff` (Convert.lean): C86, exactly, for RDF/JSON from N-Triples: in the style the code has, every subject must be a blank node, in either style no object may be one, and literals must be without escapes and without a type that is known to the reader of RDF/JSON.
* `C86_json_again_iff` (Convert.lean): C86, exactly, for RDF/JSON from RDF/JSON, whatever the characters: as from N-Triples, and types do not matter.

### C87 Graphs that are read have no name and no prefixes of their own

* Approach: Invariant of the three readers.
* Status: proved.
* `C87_fresh` (Cli.lean): C87: a graph read by any command has no name and only the prefixes of a new graph.

### C88 Values of rdftk_iri survive JSON

* Approach: Writer of JSON text followed by the RFC 8259 reader (C82); per type, maps by induction over insertions.
* Status: proved.
* `C88_name` (Serde.lean): C88: the JSON text of a name is read as the name.
* `C88_namespace` (Serde.lean): C88: the JSON text of a namespace is read as the namespace.
* `C88_iri` (Serde.lean): C88: the JSON text of an IRI is read as the IRI, if the URL parser takes its own text.
* `C88_local` (Serde.lean): C88: the JSON text of a local name, which has its members in the order of declaration, is read as the local name.
* `C88_prefixed` (Serde.lean): C88: the JSON text of a prefixed name is read as the prefixed name.
* `C88_ref` (Serde.lean): C88: the JSON text of an IRI reference is read as the reference.
* `C88_map` (Serde.lean): C88: the JSON text of every prefix map a client can have is read as the map.
* `C88_map_injective` (Serde.lean): C88: so two values of the same type with the same text are equal; here for maps.

### C89 Deserialized names are names

* Approach: Negation by witness; exact sets of accepted texts through C82.
* Status: partial. Fails: every string is read as a name or namespace (C89_fails, C89_fails_namespace). C89_name_iff, C89_namespace_iff, C89_local_iff say exactly what is read; IRIs go through the URL parser (C89_iri) and prefix maps stay one-to-one (C89_map_partial).
* `C89_fails` (Serde.lean): C89 fails: the empty string is read as a name.
* `C89_fails_namespace` (Serde.lean): C89 fails for namespaces: one without a colon is read.
* `C89_name_iff` (Serde.lean): C89, exactly: a text is read as a name if and only if it is the JSON text of a string, whatever the string, and then the name has that string.
* `C89_namespace_iff` (Serde.lean): C89, exactly, for namespaces.
* `C89_iri` (Serde.lean): C89: an IRI that is read is one that the URL parser gave for the string.
* `C89_map_partial` (Serde.lean): C89: a prefix map that is read is one that could be built by insertions, so it is one-to-one (C10); its prefixes can be any strings.
* `C89_local_iff` (Serde.lean): C89, exactly, for local names: any two strings, in an object with both members and perhaps others or in an array of two.

### C90 Printed statements tell statements apart

* Approach: Unique readability: no printed form is the beginning of another before a space; mutual induction.
* Status: partial. Fails for numbers of different types and for literals of the type IRI (C90_fails, C90_fails_iri). Proved for statements of any depth without these; in the explicit form numbers are told apart (C90_explicit). C90_iff, C90_subject_iff, C90_object_iff and C90_literal_iff say exactly when two printed terms are the same: they differ at most in the types of numbers and in IRIs given as literals (Spec/Shape). C90_fails_word: a number whose text is no single word.
* `C90_fails` (Show.lean): C90 fails in either style: a number of two types.
* `C90_fails_iri` (Show.lean): C90 fails for every IRI: the literal with the text of the IRI prints as the IRI does.
* `C90_statement_partial` (Show.lean): C90, what holds for statements of any depth: without literals of the type IRI and of the types that are printed without quotes, the printed form determines the statement.
* `C90_subject_partial` (Show.lean): C90 for subjects.
* `C90_object_partial` (Show.lean): C90 for objects, in either form; in the explicit form numbers may stand outside collections and nested statements.
* `C90_explicit` (Show.lean): C90: in the explicit form two objects that are no collections and no statements print the same exactly if they are equal, literals of the type IRI apart.
* `C90_followed` (Show.lean): C90: the printed form is also found when a space follows, as in lines and collections: it is never the beginning of another printed form.
* `C90_iff` (ShowExact.lean): C90, exactly: two statements print the same if and only if they show the same, that is, they differ at most in the types of numbers and in IRIs given as literals.
* `C90_object_iff` (ShowExact.lean): C90, exactly, for objects, in either form.
* `C90_subject_iff` (ShowExact.lean): C90, exactly, for subjects.
* `C90_literal_iff` (ShowExact.lean): C90: two literals but for those of the type IRI, exactly: they are the same, or both numbers or truth values with the same text.
* `C90_fails_word` (ShowExact.lean): C90 fails, the other way, when a text without quotes is no single word: two numbers, or one.

### C91 Floating point literals compare like the values

* Approach: Floats as sign and bit pattern; printing as parameter with form and injectivity; case analysis.
* Status: partial. Fails for NaN (C91_fails) and for zeros of different sign (C91_fails_zero). C91_iff says exactly when they are equal; C91_partial proves the property for all other pairs.
* `C91_iff` (Number.lean): C91, exactly: a literal made of a float equals a float if and only if they are the same value, where NaN is the same as NaN and the zeros are two.
* `C91_fails` (Number.lean): C91 fails: the literal of NaN equals NaN.
* `C91_fails_zero` (Number.lean): C91 fails for the zeros, which are equal: the literal of one never equals the other.
* `C91_partial` (Number.lean): C91, what holds: except for NaN and two zeros.
* `C91_kinds` (Number.lean): C91: a literal made of an `f64` never equals an `f32`, nor the other way round.

### C92 The text of a floating point literal is in its data type

* Approach: Grammar of XML Schema as predicate; exact set of values.
* Status: partial. Fails for the infinities (C92_fails). C92_iff: it holds exactly for the others.
* `C92_iff` (Number.lean): C92, exactly: it is for every float that is not infinite.
* `C92_fails` (Number.lean): C92 fails for infinity, which is printed `inf` and not `INF`.

### C93 Decimal literals compare like the numbers

* Approach: Printing of decimals modelled; injectivity by splitting at the point.
* Status: partial. Fails for every number with another digit after the point (C93_fails, C93_fails_scale). C93_iff says exactly when they are equal.
* `C93_iff` (Number.lean): C93, exactly: a literal made of a decimal equals a decimal if and only if they have the same sign, digits and scale.
* `C93_fails` (Number.lean): C93 fails: the literal of 1 does not equal 1.0.
* `C93_fails_scale` (Number.lean): C93 fails for every number: with one more digit it is equal and its literal is not.
* `C93_partial` (Number.lean): C93, what holds: equal literals are of equal numbers, and for decimals of one scale and sign the converse is true.

### C94 The text of a decimal literal denotes the number

* Approach: Denotation of decimal texts as relation to rationals.
* Status: proved.
* `C94_denotes` (Number.lean): C94: the lexical form of a literal made of a decimal is an `xsd:decimal` text that denotes the number.

### C95 Well-known IRIs keep the server and are distinct

* Approach: RFC 3986 resolution as spec; components of the model are those of the RFC.
* Status: proved.
* `C95_resolves` (Genid.lean): C95: the new IRI is the well-known path resolved against the base by RFC 3986.
* `C95_components` (Genid.lean): C95: scheme and server are those of the base, and there is no query and no fragment.
* `C95_distinct` (Genid.lean): C95: two new IRIs are equal exactly for the same scheme and server and the same identifier.
* `C95_iff` (Genid.lean): C95: there is a new IRI exactly for a base that can be one.
* `C95_digits` (Genid.lean): C95: the identifier is written with 32 digits, from which it can be read.

### C96 Printed data types tell data types apart

* Approach: Case analysis over built-in types; negation by witness.
* Status: partial. Fails for IRIs with the schemes xsd and rdf (C96_fails). C96_iff says exactly which data types print like no other; built-in types expand to their IRI (C96_expand).
* `C96_expand` (DataTypeText.lean): C96: the printed form of a built-in data type is a prefixed name that the mappings of a new graph expand to the IRI of the data type.
* `C96_fails` (DataTypeText.lean): C96 fails: an IRI with the scheme `xsd` prints like a built-in type.
* `C96_partial` (DataTypeText.lean): C96, what holds: without IRIs of the schemes `xsd` and `rdf`.
* `C96_iff` (Exact.lean): C96, exactly: nothing else prints like a data type if and only if it is named by an IRI that is no prefixed name of a built-in type.

### C97 Builder calls accumulate

* Approach: Calls as an inductive type; induction over the sequence.
* Status: proved. `C97_anonymous` says what a resource begun without a name is.
* `C97_values` (Builder.lean): C97: after any calls, the values of each predicate are those before and then those that the calls name, in the order of the calls; the subject stays.
* `C97_new` (Builder.lean): C97: for a new resource there is nothing else.
* `C97_anonymous` (Builder.lean): C97: a resource that was begun without a name has the label that was generated for its subject, and is no named one.
* `C97_panic` (Builder.lean): C97: the calls panic exactly if one of them has an impossible language tag.
* `C97_order` (Builder.lean): C97: the order of calls with different predicates does not matter to the values.
* `C97_predicate` (Builder.lean): C97: a predicate that is built first and then added gives the same resource as the calls made directly.

### C98 XML literals are read as their content

* Approach: Run of the reader machine over the content, by induction; replacement as a map of characters.
* Status: partial. Fails for content without an element, which is a panic, and for every element, whose brackets are replaced (C98_fails, C98_fails_element, C98_fails_ambiguous). C98_reads says what is read when the content is one element, C98_iff when that is right.
* `C98_reads` (XmlRead.lean): C98: when the content is one element, possibly after text, the literal has the text of the content with brackets replaced and then escaped.
* `C98_iff` (XmlRead.lean): C98: it is right exactly when the content has no brackets at all and nothing to escape.
* `C98_distinct` (XmlRead.lean): C98: literals whose texts have no ampersands are still told apart.
* `C98_text_panics` (XmlRead.lean): C98: content without an element is a panic.
* `C98_fails` (XmlRead.lean): C98 fails: plain text as content is a panic.
* `C98_fails_element` (XmlRead.lean): C98 fails: an element as content is read with its brackets replaced.
* `C98_fails_ambiguous` (XmlRead.lean): C98 fails: an element and text that spells it are read as the same literal.

### C99 Replaced fragments and paths follow the grammar of IRIs

* Approach: Grammar as a recursive function; encoding related to it by induction over the text.
* Status: partial. Fails for braces, brackets and percent signs alone (C99_fails, C99_fails_percent, C99_fails_path). C99_fragment_iff and C99_path_iff say exactly for which texts it holds.
* `C99_fragment_iff` (IriValid.lean): C99: the fragment is by the grammar exactly when the given text has percent signs only before two hexadecimal digits and none of the characters `# [ ] ^ { | }` and the backslash.
* `C99_path_iff` (IriValid.lean): C99: the path of a hierarchical IRI is by the grammar exactly when the given text has percent signs only before two hexadecimal digits and none of the characters `[ ] ^ |` and the backslash.
* `C99_fails` (IriValid.lean): C99 fails: a brace in a fragment is left as it is.
* `C99_fails_percent` (IriValid.lean): C99 fails: a percent sign alone is left as it is.
* `C99_fails_path` (IriValid.lean): C99 fails: a bracket in a path is left as it is.

### C100 Indices hold the statements

* Approach: Index as a list of pairs; invariant over the calls; the constructor by induction over the statements.
* Status: partial. Fails for every graph made from statements, which then holds them twice (C100_fails_always, C100_doubled), and after an assignment through statements_mut. Proved for graphs that start empty, after any calls. The crate does not compile the file at present. C100_iff and C100_count follow each statement through any calls on a graph made from statements: it starts with twice as many copies in the graph as in the indices, and the property holds exactly when both numbers have become equal; C100_fails_stays: never as long as no statement is removed by itself and the graph is not cleared. `C100_constructors` says what the constructors make.
* `C100_partial` (Indexed.lean): C100 for graphs that start empty, after any calls. Missing: graphs made from statements.
* `C100_doubled` (Indexed.lean): A graph made from statements has every statement twice, and its indices have it once.
* `C100_constructors` (Indexed.lean): C100: what the four constructors make.
* `C100_fails_always` (Indexed.lean): C100 fails for every graph that is made from statements, if there are any.
* `C100_fails` (Indexed.lean): C100 fails.
* `C100_fails_assign` (Indexed.lean): An assignment through `statements_mut` leaves the indices behind.
* `C100_iff` (Indexed.lean): C100, exactly: after any calls each statement is held by the graph and by its indices as often as `Spec.tally` says, which starts with twice for the graph and once for the indices, for each time the statement was given; so the indices hold the statements exactly when both numbers agree.
* `C100_count` (Indexed.lean): C100: how often a statement is held after any calls.
* `C100_fails_stays` (Indexed.lean): C100 fails for graphs made from statements as long as no statement is removed by itself and the graph is not cleared.

### C101 Reported nodes are those of the statements

* Approach: Keys of the indices as the keys of all statements seen, by induction over the calls; negation by witness.
* Status: partial. Fails after a removal (C101_fails). No node is missing (C101_partial); C101_seen says exactly which are reported. C101_seen covers graphs made from statements too.
* `C101_seen` (Indexed.lean): C101, exactly: the nodes reported are those of the statements that were given or inserted since the graph was last cleared, removed or not.
* `C101_partial` (Indexed.lean): C101, what holds: no node of the statements is missing. Missing: the converse, after a removal.
* `C101_fails` (Indexed.lean): C101 fails: the nodes of a statement that was removed are still reported.

### C102 Patterns find the statements that agree

* Approach: From C100; the cases with a missing part by computation.
* Status: partial. Fails for every pattern with a part left out, which finds nothing (C102_wildcard). C102_iff says exactly for which patterns the right statements are found. C102_made says what is found in graphs made from statements, and C102_fails_dedup that nothing is found in them once duplicates are removed, though all statements are there.
* `C102_partial` (Indexed.lean): C102 for patterns that give all three parts; each statement is found once.
* `C102_wildcard` (Indexed.lean): A pattern that leaves out a part finds nothing.
* `C102_fails` (Indexed.lean): C102 fails for the pattern that leaves out everything.
* `C102_made` (Indexed.lean): C102 for graphs made from statements: a pattern that gives all three parts finds a statement just when the indices still hold it.
* `C102_fails_dedup` (Indexed.lean): C102 fails for every graph made from statements once its duplicates are removed: no pattern finds anything, and all the statements are there.
* `C102_iff` (Indexed.lean): C102, exactly: a pattern finds the statements that agree with it when it gives all three parts, or when no statement agrees with it.
* `C102_for` (Indexed.lean): The predicates reported for a subject are those of its statements; objects are never reported.

### C103 Changes to a graph with indices are exact

* Approach: Counts of statements before and after; sets as lists without duplicates in any order.
* Status: proved. For graphs that start empty; the duplicated statements of the constructor are C100.
* `C103_counts` (Indexed.lean): C103: inserting, removing one statement, merging and clearing, by the number of times each statement is held.
* `C103_dedup` (Indexed.lean): C103: removing duplicates keeps one of each statement and returns the others.
* `C103_removeAllFor` (Indexed.lean): C103: removing all statements for a subject keeps the others in their order, and returns those it removed.
* `C103_other` (Indexed.lean): C103: no call but those on the name and the mappings changes these, and these calls change no statement.
* `C103_set` (Indexed.lean): C103: replacing a statement changes the statement at this place and no other, and neither the index, the name nor the mappings.

### C104 Inverse relations

* Approach: Finite case analysis against the vocabularies.
* Status: partial. Fails for instances (C104_fails): the inverse of broaderInstantial is itself. C104_iff and C104_uri_iff say for which relations it holds. The crate is not part of the workspace.
* `C104_fails` (Skos.lean): C104 fails for the relation of a class to an instance.
* `C104_iff` (Skos.lean): C104, exactly: which relations are restored.
* `C104_uri_iff` (Skos.lean): C104, exactly: for which relations the inverse is the declared one, and is narrower if the relation is broader.
* `C104_narrower` (SkosCalls.lean): C104: which relations are taken to be narrower and broader ones, by their IRIs.

### C105 Listing a thesaurus ends and lists each thing once

* Approach: Flattening over an arbitrary child function with fuel; ends iff accessible; invariant that the calls build a forest.
* Status: partial. Fails for cycles, on which the recursion never ends (C105_fails_cycle), and for concepts with two broader ones (C105_fails_shared). C105_ends_iff says exactly when it ends, C105_lists what is listed; proved in full for collections and for calls that share nothing.
* `C105_ends_iff` (Skos.lean): C105, exactly: the lists are finite if and only if no chain of narrower concepts or of collections goes on for ever.
* `C105_lists` (Skos.lean): C105, exactly: what is listed.
* `C105_partial` (Skos.lean): C105 for thesauri in which no existing concept was given as a narrower one. Missing: the others.
* `C105_collections` (Skos.lean): C105 for collections, whatever the calls.
* `C105_fails_cycle` (Skos.lean): A top concept that is narrower than itself: the recursion never ends.
* `C105_fails_shared` (Skos.lean): A concept that is narrower than two others is listed twice.
* `C105_fails` (Skos.lean): C105 fails.

### C106 Everything made is described

* Approach: From C107 and an invariant over the calls that everything made is reachable.
* Status: partial. Fails for concepts made with `related` (C106_fails). C106_iff says exactly which are described.
* `C106_iff` (Skos.lean): C106, exactly: of which IRIs the graph says that they are concepts and that they belong to the scheme.
* `C106_partial` (Skos.lean): C106 for thesauri in which every concept was made as a top concept or a narrower one. Missing: concepts that were made with `related` alone.
* `C106_collections` (Skos.lean): C106 for collections, whatever the calls.
* `C106_fails` (Skos.lean): C106 fails: a related concept that was made with `related` is not described.

### C107 The graph of a thesaurus says what the thesaurus holds

* Approach: Description as an inductive predicate; equivalence with the written list, by induction over members and the list of nodes.
* Status: proved. The texts of blank nodes come from a supply. Statements of blank nodes are those of the lists (C107_blank).
* `C107_statements` (Skos.lean): C107: the statements that are written of anything but a blank node are those that describe the thesaurus.
* `C107_written_iff` (Skos.lean): C107: statements are written for every thesaurus that can be listed, and for no other.
* `C107_blank` (Skos.lean): C107: statements about blank nodes are those of the lists of ordered collections.
* `C107_graph` (Skos.lean): C107: the graph holds these statements, has the mappings given and no name.
* `C107_members` (SkosCalls.lean): C107: the members of a collection without order are written by their own IRIs, concepts and collections.

### C108 Ordered collections are linked to their lists

* Approach: Shape of the list nodes by induction; an RDF list must end in nil, the written one does not.
* Status: partial. Fails for every ordered collection: there is no memberList (C108_fails_link), and the written nodes are no list (C108_fails_always). C108_partial says what is written.
* `C108_partial` (Skos.lean): C108, what is written: the nodes in order, each with its member and the rest, and one more node without a member. Missing: the link to the list and its proper end.
* `C108_fails_always` (Skos.lean): C108 fails for every ordered collection with members: no node of what is written is a list of anything.
* `C108_fails_link` (Skos.lean): C108: no ordered collection is linked to a list, whether it has members or not: nothing but a blank node refers to a blank node.
* `C108_fails` (Skos.lean): C108 fails.
* `C108_apart` (SkosCalls.lean): C108: no node is in the lists of two collections, or twice in one: each has at most one member.

### C109 Preferred labels

* Approach: First match in the list of labels.
* Status: partial. Fails for a second label: the first is returned (C109_first, C109_iff).
* `C109_first` (Skos.lean): C109, exactly: the first preferred label that was added for the language is returned, and the IRI if there is none.
* `C109_iff` (Skos.lean): C109, exactly: a label that is added is returned if and only if the answer was it before, or there was no answer.
* `C109_other` (Skos.lean): C109: a label of another kind or for another language changes no answer.
* `C109_fails` (Skos.lean): C109 fails for a second label in the same language.
* `C109_new` (Skos.lean): C109: making a label panics exactly for a language that is given and is not a language tag; no language is the empty text.

### C110 Property constructors use their predicates

* Approach: Finite case analysis; negation by witness.
* Status: partial. Fails for `available`, which uses the predicate of `created` (C110_iff: all others are right), and literals with a data type or a language are exact (C110_literal). C110_made: what each constructor of a property says.
* `C110_iff` (Skos.lean): C110, exactly: all but one.
* `C110_fails` (Skos.lean): C110 fails for the date from which something is available.
* `C110_fails_ambiguous` (Skos.lean): So the dates from which something is available and at which it was created cannot be told apart.
* `C110_literal` (Skos.lean): The literal of a property has the text of the property, escaped, its type, and its language if it has no type.
* `C110_made` (Skos.lean): C110: what each way to make a property says: the text, with the language or the type that was given, of the property that was asked for; a tag that is not one stops the program.
* `C110_has` (Skos.lean): A property is found exactly if one with the predicate was added.

### C111 Standard prefixes of a thesaurus graph

* Approach: Invariant of the bijective prefix map (C01).
* Status: partial. Fails if the namespace of a standard prefix is the default namespace (C111_iff, exact).
* `C111_partial` (Skos.lean): C111 without a default namespace. Missing: default namespaces that have a prefix.
* `C111_iff` (Skos.lean): C111, exactly: a standard prefix is kept if and only if its namespace is not made the default one; the default namespace is always set.
* `C111_fails` (Skos.lean): C111 fails: with the namespace of SKOS as the default one the prefix `skos` is lost.

### C112 Making a document changes nothing

* Approach: The two loops as one equation, by induction, as inverses get no inverses themselves.
* Status: partial. Fails for every thesaurus with a narrower or related concept (C112_iff). C112_result gives the changed thesaurus and the panics exactly; C112_again: each document adds the relations once more.
* `C112_result` (SkosDocument.lean): C112, what happens: the program stops if a listed concept is narrower than or related to itself; otherwise every concept gets the inverses of the relations that listed concepts have to it, and nothing else is changed.
* `C112_iff` (SkosDocument.lean): C112, exactly: the thesaurus is as before if and only if no concept of the scheme has a narrower or related one. The equality of concepts is any one for which equal concepts are alike in that.
* `C112_fails` (SkosDocument.lean): C112 fails: with one narrower concept a broader relation is added.
* `C112_inverse` (SkosDocument.lean): C112, what the relations mean: after a document is made, every narrower or related concept of a listed one has the inverse relation.
* `C112_again` (SkosDocument.lean): C112, and again: a second document adds the same relations a second time.
* `C112_graph` (SkosDocument.lean): C112, the appendix: the graph that is added to the document is that of the changed thesaurus, in which the inverse relations are said for the concepts that are part of the scheme.

### C113 Integrity conditions of SKOS

* Approach: From C107, by cases on who says a statement; negations by witness.
* Status: partial. Fails for each of the conditions (three witnesses); the calls check nothing. C113_partial gives conditions under which they hold. C113_classes_iff, C113_labels_iff and C113_preferred_iff say exactly which thesauri satisfy each condition.
* `C113_partial` (Skos.lean): C113 for thesauri that are tidy. Missing: the others, which the calls do not refuse.
* `C113_fails_classes` (Skos.lean): C113 fails for classes: nothing keeps a concept from having the IRI of its scheme.
* `C113_fails_labels` (Skos.lean): C113 fails for labels: nothing keeps a label from being added as two kinds.
* `C113_fails_preferred` (Skos.lean): C113 fails for preferred labels: two can be added for one language.
* `C113_fails` (Skos.lean): C113 fails.
* `C113_classes_iff` (SkosExact.lean): C113 for classes, exactly.
* `C113_labels_iff` (SkosExact.lean): C113 for labels, exactly: no literal is given to a resource by two of the three predicates.
* `C113_preferred_iff` (SkosExact.lean): C113 for preferred labels, exactly: the literals given to a resource as preferred labels are for different languages.
* `C113_properties` (SkosExact.lean): A literal added by the calls for properties is never a label.

### C114 A document describes each concept once, in order

* Approach: Merge sort of the standard library; removal of neighbours by induction.
* Status: partial. Fails for a concept with two broader ones (C114_fails): only neighbouring duplicates are removed. Order and completeness hold (C114_partial). The equality of concepts is a parameter. C114_iff says just when each concept is described once: no other concept with the same label between two occurrences.
* `C114_partial` (SkosDocument.lean): C114, what holds: exactly the concepts of the scheme are described, up to the equality of concepts, in the order of their labels, and once each if the scheme lists none twice. Missing: concepts that are listed twice.
* `C114_iff` (SkosDocument.lean): C114, exactly: concepts are described once each unless the list of the scheme has, between two occurrences of a concept, another with the same label.
* `C114_fails` (SkosDocument.lean): C114 fails: a concept that two others have as a narrower one is described twice if another concept has its label.

### C115 A vocabulary is written as what it says

* Approach: Case analysis gives the exact set that is written; what follows by the rules of RDFS by induction over derivations.
* Status: partial. Fails: parents are written as types (C115_fails). C115_written says exactly what is written, C115_iff that the statement holds exactly for vocabularies without parents, C115_entailed that nothing about subclasses follows from any written vocabulary but trivialities, C115_ancestors that it should.
* `C115_written` (Rdfs.lean): C115: exactly what is written. Parents are written as types.
* `C115_never` (Rdfs.lean): C115: no vocabulary is written with a statement about subclasses or subproperties.
* `C115_iff` (Rdfs.lean): C115 holds exactly for vocabularies without parents.
* `C115_fails` (Rdfs.lean): C115 fails for a subclass.
* `C115_entailed` (Rdfs.lean): C115: by the rules of RDFS nothing follows from a written vocabulary about subclasses and subproperties but what holds of every class and property.
* `C115_ancestors` (Rdfs.lean): C115: from what a vocabulary says it follows that a class is a subclass of its parents, their parents, and so on; from what is written this follows for none but itself, `rdfs:Resource` and `rdfs:Literal`.
* `C115_property_ancestors` (Rdfs.lean): C115: the same for properties.

### C116 Vocabularies after calls

* Approach: Induction over calls.
* Status: proved. Proved for all sequences of calls, and for what each constructor makes.
* `C116_vector` (Rdfs.lean): C116: after `push` and `remove` calls on a vector, an element is there as often as it was added since it was last removed.
* `C116_order` (Rdfs.lean): C116: what remains keeps the order in which it was added.
* `C116_classes` (Rdfs.lean): C116: a class is in a vocabulary exactly when it was the last to be added with its IRI and no class with its IRI was removed since; no two classes have the same IRI.
* `C116_properties` (Rdfs.lean): C116: the same for properties.
* `C116_frame` (Rdfs.lean): C116: a call changes only the vector that it names.
* `C116_tests` (Rdfs.lean): C116: `is_instance_of` and `is_child_of` are membership.
* `C116_class_made` (Rdfs.lean): C116: what the classes that are made say: a type and at most one parent, as the name of the call has it.
* `C116_property_made` (Rdfs.lean): C116: the same for properties. The type of those that are made without one is `rdfs:Property`, which is no name of RDFS.

### C117 The schema of RDFS

* Approach: The schema is a closed term, so membership is decided; independence of the order from C115; what does not follow by an invariant of derivations.
* Status: partial. Fails: rdf:Property is replaced by a name that RDFS does not have, and subclasses are written as instances (C117_fails). C117_axioms_iff says exactly which axioms are written; C117_instances gives written statements that do not follow from the schema. C117_members, C117_taxonomy and C117_property_parents say which members, which parents and which types are given.
* `C117_axioms_iff` (Rdfs.lean): C117: the axioms that are written are those that do not mention `rdf:Property` and are not about subclasses and subproperties.
* `C117_fails` (Rdfs.lean): C117 fails: the schema does not say that the domain of `rdfs:domain` is `rdf:Property`.
* `C117_property` (Rdfs.lean): C117: the schema mentions `rdf:Property` nowhere; in its place it has a name that RDFS does not have.
* `C117_domains` (Rdfs.lean): C117: every domain and range that is written is an axiom, with `rdf:Property` for the name that RDFS does not have.
* `C117_names` (Rdfs.lean): C117: the schema describes every name of the vocabulary `rdfs` of the crate for names but `rdfs:value`.
* `C117_members` (Rdfs.lean): C117: the schema has the properties of the recommendation, each once. Of its classes it has those but for four, in whose place it has names of RDFS that do not exist; and `rdf:nil`, which is no class.
* `C117_taxonomy` (Rdfs.lean): C117: apart from these names, the classes have the types and parents of the recommendation, but that properties are made a subclass of classes.
* `C117_property_parents` (Rdfs.lean): C117: the properties have no labels and no parents; by the recommendation `rdfs:isDefinedBy` has one.
* `C117_instances` (Rdfs.lean): C117: the schema is written with statements that do not follow from what it says: that the kinds of container are themselves containers.

### C118 Written query results are read back

* Approach: A reader written from RFC 4180; that it undoes the quoting by induction over fields and records.
* Status: partial. Fails for results without columns (C118_fails); C118_iff says exactly when it holds, C118_partial that it does for results with columns. C118_written_iff says exactly what can be written, C118_records which records and C118_lines their text. The crate's own reader panics on every text (C118_fails_reader).
* `C118_written_iff` (Csv.lean): C118: results can be written exactly when all records have the same number of fields.
* `C118_read` (Csv.lean): C118: what is read back.
* `C118_delimiter` (Csv.lean): C118: fields are separated by tabs if this was chosen, and by commas otherwise.
* `C118_iff` (Csv.lean): C118 holds exactly for results without empty records.
* `C118_fails` (Csv.lean): C118 fails for results without columns.
* `C118_partial` (Csv.lean): C118 for results with columns whose rows are as long. Missing: results without columns, for which the empty record cannot be told from an empty field.
* `C118_lines` (Csv.lean): C118: the text that is written is the lines of the records, one after the other.
* `C118_records` (Csv.lean): C118: the records are the row of names of columns and the rows of values; TSV always has the first, CSV unless the option says otherwise.
* `C118_fails_reader` (Csv.lean): C118: reading results back with the crate panics, whatever the text.

### C119 Values in query results

* Approach: Forms written from the recommendation; case analysis over values.
* Status: partial. Fails for blank nodes (C119_fails), and no style of IRIs is right for both formats (C119_fails_iris). C119_csv_iff and C119_tsv_iff say exactly which values have the right form, C119_header the same for the first line.
* `C119_csv_iff` (Csv.lean): C119: which values have the form of CSV: IRIs without brackets and literals of the types that are printed without quotes.
* `C119_tsv_iff` (Csv.lean): C119: which values have the form of TSV: IRIs with brackets, and booleans, decimals and doubles.
* `C119_fails` (Csv.lean): C119 fails for blank nodes, which lose the `_:` in both formats.
* `C119_header` (Csv.lean): C119: the first line has the form of CSV, but never that of TSV.
* `C119_fails_iris` (Csv.lean): C119: no way of printing IRIs is right for both formats.

### C120 Query results written to a file

* Approach: Case analysis over the state of the file.
* Status: partial. Fails: the file is opened for reading, and never changed (C120_fails, C120_unchanged), yet the call succeeds for texts up to 8192 bytes (C120_succeeds_iff). C120_iff says exactly when the statement holds of a call.
* `C120_succeeds_iff` (Csv.lean): C120: when writing to a file succeeds: the file exists and the text has at most 8192 bytes.
* `C120_unchanged` (Csv.lean): C120: the file is never changed.
* `C120_fails` (Csv.lean): C120 fails.
* `C120_iff` (Csv.lean): C120 holds for a call exactly when it fails or the file has the text already.

### C121 Variables of queries

* Approach: `many` of one character is the longest run, by induction; the classes of characters are those of the grammar.
* Status: partial. Fails for names with underscores (C121_fails, C121_cut); C121_iff says these are the only ones, and C121_exact says exactly what is read. Bare words are read too (C121_fails_bare), and the conversion of text to a variable always panics (C121_fails_from_str).
* `C121_exact` (Sparql.lean): Just what is read as a variable: a mark that may be missing, and a name without underscores, up to the first character that is not one of names, or an underscore.
* `C121_iff` (Sparql.lean): A variable of the grammar is read if there is no underscore in it, and only then.
* `C121_fails` (Sparql.lean): `?first_name` is not.
* `C121_cut` (Sparql.lean): A variable with an underscore inside is cut there, and the rest of its name is left as text.
* `C121_fails_bare` (Sparql.lean): Bare words are read as variables.
* `C121_fails_from_str` (Sparql.lean): No text makes a `Variable`: the conversion panics on every text.

### C122 IRIs in queries

* Approach: From the lemma on longest runs.
* Status: proved. Proved in both directions for all texts.
* `C122_space` (Sparql.lean): White space is that of Unicode.
* `C122_iff` (Sparql.lean): `IRIREF` is read just where it stands: `<`, allowed characters, `>`, and the white space after it.
* `C122_unique` (Sparql.lean): What is in `IRIREF` determines, and is determined by, the text: two readings agree.

### C123 Prefixed names in queries

* Approach: After `many` its own parser fails, by induction; so the last part of a local name is never read.
* Status: partial. Fails for every local name of two or more characters (C123_fails, C123_iff); without white space after it no name is read (C123_fails_end), nor a prefix and a colon alone (C123_fails_namespace), while white space after the colon is (C123_fails_space). Percent escapes are read in base ten, so most give a wrong character (C123_percent_iff) or a panic (C123_fails_percent). `C123_iri` says that an `iri` is a reference or a prefixed name.
* `C123_single` (Sparql.lean): Whatever is read as a local name is of one character.
* `C123_iri` (Sparql.lean): C123: an `iri` is one of the two kinds.
* `C123_iff` (Sparql.lean): A prefixed name of the grammar is read if its local name is a single character, and only then.
* `C123_fails` (Sparql.lean): `ex:ab` is not read.
* `C123_fails_end` (Sparql.lean): A local name at the end of the text, or with no white space after it, is not read.
* `C123_fails_namespace` (Sparql.lean): `PNAME_NS` on its own, a prefix and a colon, is not read as a prefixed name: the first choice has used it up, so the second is not tried.
* `C123_fails_space` (Sparql.lean): White space after the colon is skipped: `ex: a` is read as a prefixed name.
* `C123_percent_iff` (Sparql.lean): A percent escape of two digits is the character with that number in base sixteen if the first digit is `0` and the second is below ten, and only then.
* `C123_fails_percent` (Sparql.lean): With a letter among the two digits the parser panics.
* `C123_escape` (Sparql.lean): Escapes with a backslash are those of the grammar.
* `C123_percent_short` (Sparql.lean): A percent sign with one hexadecimal digit or none after it, which is no escape of the grammar, is read or makes the parser panic.

### C124 Prologues of queries

* Approach: Each declaration from the lemmas on tokens; induction over the declarations.
* Status: partial. Fails for BASE with the IRI at once after it (C124_fails, C124_fails_base) and for comments (C124_fails_comment); prefixes that end in a dot are taken (C124_fails_dot). C124_partial: any number of declarations without these. C124_fails_space: a prefix that begins with U+1680 is declared without it.
* `C124_base` (Sparql.lean): `BASE`, white space and an `IRIREF` are read as a declaration of the base, with its IRI.
* `C124_prefix` (Sparql.lean): `PREFIX`, a prefix, a colon and an `IRIREF` are read as a declaration of the prefix, with its IRI.
* `C124_no_prefix` (Sparql.lean): The same without a prefix before the colon.
* `C124_partial` (Sparql.lean): A prologue without comments, with white space after each `BASE`, and without prefixes that begin with U+1680, is used up, and no more, whatever the number of its declarations.
* `C124_fails_base` (Sparql.lean): `BASE` with the IRI at once after it is no declaration for the parser, though it is one in the grammar.
* `C124_fails` (Sparql.lean): `BASE<http://a/>` is not read.
* `C124_fails_comment` (Sparql.lean): Nor is a prologue with a comment.
* `C124_fails_dot` (Sparql.lean): A prefix that ends in a dot is no prefix of the grammar, but is read.
* `C124_fails_space` (Sparql.lean): A prefix that begins with U+1680, a letter of the grammar and white space of the parser, is declared without it.

### C125 Language tags, keywords and booleans of queries

* Approach: Induction over the parts of a tag; a text compared letter by letter, by induction.
* Status: partial. C125_read and C125_sound: tags; C125_keyword_base, C125_keyword_prefix and C125_boolean say exactly what is read. A hyphen after a tag that begins no part is an error (C125_fails_hyphen). When a language tag is read, and which, is now given exactly (C125_iff): a digit after a tag of one part is left for what follows, after a further part it belongs to it.
* `C125_read` (Sparql.lean): A language tag is read whole where it stands, if neither a letter, a digit nor a hyphen follows.
* `C125_sound` (Sparql.lean): What is read as a language tag is one, stands at the start of the text, and could not be longer.
* `C125_iff` (Sparql.lean): Exactly when a language tag is read, and which: it stands there, neither a letter nor a hyphen follows, nor a digit if the tag has a further part.
* `C125_fails_hyphen` (Sparql.lean): A hyphen that begins no further part makes the parser fail, though a tag stands before it.
* `C125_keyword_base` (Sparql.lean): `BASE` is read as a keyword just where it stands, in upper or lower case, and no letter or digit follows.
* `C125_keyword_prefix` (Sparql.lean): So is `PREFIX`.
* `C125_boolean` (Sparql.lean): `true` and `false` are read just where they stand, whatever follows.

### C126 What calls make of a thesaurus

* Approach: Induction over calls, with the index of the next concept and collection as state.
* Status: proved. Proved for all sequences of calls: what is made, in order, and what is said of each.
* `C126_concepts` (SkosCalls.lean): C126: after any calls, the concepts are those that were made, in order, each with the relations, external relations, labels and properties that were said of it since, in order, and nothing else.
* `C126_collections` (SkosCalls.lean): C126: the same for collections.
* `C126_scheme` (SkosCalls.lean): C126: the same for the scheme.

### C127 RDF/JSON is read as what it says

* Approach: Meaning of the note as a relation on JSON values; reading follows it member by member, by induction.
* Status: partial. Fails for literals with anything to escape (C127_fails); C127_reads says exactly what is read, C127_iff exactly when it is what the document says. Documents that are not of the form of the note are read too (C127_fails_more); C65_read_iff says exactly which.
* `C127_reads` (JsonMeaning.lean): C127: what is read, in the order of the document: what it says with the texts of literals escaped.
* `C127_unique` (JsonMeaning.lean): C127: the meaning of a document is one.
* `C127_iff` (JsonMeaning.lean): C127 holds for a document exactly when no literal in it has anything to escape.
* `C127_partial` (JsonMeaning.lean): C127 for documents without such literals. Missing: literals with characters that are escaped.
* `C127_fails` (JsonMeaning.lean): C127 fails: a line feed in a literal is read as a backslash and a letter.
* `C127_fails_more` (JsonMeaning.lean): C127, the other direction fails: documents are read that are not of the form of the note.

### C128 A printed formula is a block in braces

* Approach: The text as a list of lines, by induction over the variables; the last character decides the rest.
* Status: partial. Fails for every formula with a statement: the brace is not closed (C128_fails, C128_iff). C128_text says exactly what is printed; without statements the variables are lost (C128_lost).
* `C128_text` (Formula.lean): C128: what is printed: a line for each variable, those for all first, one for the opening brace, and one for each statement. Without statements, two braces and no variables.
* `C128_iff` (Formula.lean): C128 holds exactly for formulae without statements: the brace is not closed.
* `C128_fails` (Formula.lean): C128 fails for every formula with a statement.
* `C128_lost` (Formula.lean): C128: without statements the variables are lost.
* `C128_kinds` (Formula.lean): C128: a variable is for all or for some, as it was made.
* `C128_empty` (Formula.lean): C128: a formula is empty when it has no statements.

### C129 Turtle with nested blank nodes says the graph

* Approach: Invariant of the reader while it reads nested brackets, with the labels of the nodes read so far, by induction on the depth; the exact condition by counting blank nodes.
* Status: partial. Fails when a nested blank node is also a subject or the object of two statements (C129_fails), and only then (C129_iff). In any case the text says the statements of the graph once the nodes have their labels back (C129_says). Types of numbers: C129_literal_iff. Collections are left out: C68_fails_collection. Predicates that are written as rdf:type are covered: the text says them with that predicate, and C129_iff says that then it does not say the graph.
* `C129_says` (TurtleNested.lean): C129, what is read: with labels for the nodes in brackets the text says the statements of the graph, each at least once, and nothing else; numbers without quotes have the type of Turtle.
* `C129_iff` (TurtleNested.lean): C129, exactly when: no predicate is written as `rdf:type` although it is not, and blank nodes are not nested, or each that is an object is no subject and the object of one statement only.
* `C129_flat` (TurtleNested.lean): C129, without nesting: the triples are those that the text says.
* `C129_literal_iff` (TurtleNested.lean): C129, literals: what the text says is the literal exactly when it is not of a type written without quotes, or Turtle gives its text the same type.
* `C129_fails` (TurtleNested.lean): C129 fails: the node of one statement is read as two.
* `C129_order` (TurtleNested.lean): C129, the order in which sets are visited: what is said does not depend on it.

### C130 Every label is in one table of its kind

* Approach: The loop over the sorted labels as a list of runs, by induction; the sort is stable.
* Status: proved.
* `C130_labels` (DocumentTables.lean): C130: the labels of a resource are shown by kind, the kinds in order, each once and under its name, and under each kind exactly the labels of that kind, in the order in which they were added.
* `C130_all` (DocumentTables.lean): C130, no label is lost: the texts that the tables show are the texts of the labels, each as often as it was added.

### C131 The table of properties shows predicate, text, data type and language

* Approach: Rows one by one; exact condition on the mappings.
* Status: partial. Fails for a data type without a prefix: the predicate is shown instead (C131_fails), so that properties of different types look alike (C131_fails_ambiguous). C131_iff says exactly when a row is right, C131_table what the table is.
* `C131_iff` (DocumentTables.lean): C131, exactly: a property is shown as it is if and only if its data type, if it has one, has a prefix or is written like the predicate.
* `C131_partial` (DocumentTables.lean): C131 for properties without a data type or with one that has a prefix. Missing: data types without a prefix.
* `C131_fails` (DocumentTables.lean): C131 fails: without a prefix for the data type the predicate is shown in its place.
* `C131_fails_ambiguous` (DocumentTables.lean): C131, two properties that differ in their data types only can be shown alike.
* `C131_table` (DocumentTables.lean): C131, the table: it has one row for each property, in the order of the predicates and, for one predicate, in the order in which the properties were added.

### C132 Links in a document lead to a heading

* Approach: The document as a list of parts with their headings and links; links and headings are compared as sets of names.
* Status: partial. Fails: the link to the collections leads nowhere, or to the list of the collections of some resource and never to the part about collections (C132_fails, C132_fails_collections). C132_iff says exactly when every link leads somewhere, C132_anchors where links can lead.
* `C132_anchors` (DocumentLinks.lean): C132, the headings to which links can lead, in order: the scheme, the two parts about concepts, each concept in turn, each collection in turn and the appendix. The name of the part about collections is given to each list of collections.
* `C132_iff` (DocumentLinks.lean): C132, exactly: every link leads to a heading when the related concepts and the concepts in collections are in the scheme (or share their title with one that is), and, if the document links to its collections at all, something in it is a member of a collection.
* `C132_partial` (DocumentLinks.lean): C132 for thesauri in which every related concept and every member is in the scheme, and there are no collections or one of them has a concept of the scheme as a member.
* `C132_fails` (DocumentLinks.lean): C132 fails: the part about collections cannot be reached in a document about a concept and an empty collection.
* `C132_fails_collections` (DocumentLinks.lean): C132, the part about collections is never what is reached: every heading of that name is that of a list of the collections that something is in.

### C133 The hierarchy in a document is the hierarchy of the thesaurus

* Approach: Chains of entries against paths of narrower concepts, by induction on the depth.
* Status: proved.
* `C133_chains` (DocumentTree.lean): C133: the ways down the lists of the hierarchy are the ways from a top concept to narrower concepts; each entry has the label of its concept and leads to its section, top concepts in bold, parts and instances in italics.
* `C133_entries` (DocumentTree.lean): C133, no more and no less: the entries of the hierarchy are those of the concepts that the scheme lists, each as often as it is listed there.
* `C133_sorted` (DocumentTree.lean): C133, the order: in every list below a top concept the entries are in the order of their labels.
* `C133_ends_iff` (DocumentTree.lean): C133, exactly when: the hierarchy is finished if and only if no chain of narrower concepts from a top concept goes on for ever.

### C134 The section of a concept shows all its relations

* Approach: Rows one by one; exact condition on the concept.
* Status: partial. Fails for concepts with external relations only: there is no table (C134_fails). C134_iff says exactly when all are shown.
* `C134_iff` (DocumentTables.lean): C134, exactly: the section shows all the relations if and only if the concept has a relation to another concept or none at all.
* `C134_partial` (DocumentTables.lean): C134 for concepts with a relation to another concept. Missing: concepts with relations to things elsewhere only.
* `C134_fails` (DocumentTables.lean): C134 fails: a concept that is related to nothing but a concept of another thesaurus is shown without the relation.

### C135 Documents have a proper outline

* Approach: Levels of each part, and induction over the sections; recursion ends exactly for well-founded hierarchies.
* Status: proved.
* `C135_outline` (DocumentLinks.lean): C135: a document begins with its only heading of the first level, has headings of four levels at most, and no heading is more than one level deeper than the one before.
* `C135_thesaurus` (DocumentLinks.lean): C135, the document and the thesaurus: writing a document changes the thesaurus as `makeDocument` says, and panics when that does.
* `C135_ends_iff` (DocumentLinks.lean): C135, a document is made, or a panic comes of it, exactly when no chain of narrower concepts and no chain of collections goes on for ever.

### C136 Collections and their members refer to each other

* Approach: Links of the two kinds of sections, member by member.
* Status: proved.
* `C136_concept` (DocumentLinks.lean): C136, the sections of a collection and of a concept refer to each other: the collection shows the concept among its members exactly when the concept shows the collection, provided that titles and IRIs tell things apart.
* `C136_membership` (DocumentLinks.lean): C136, in general: a collection is shown in the section of a resource exactly when one of its members has the IRI of the resource, and the collections are in the order of the document.
* `C136_members` (DocumentLinks.lean): C136, the list of members shows each of them, in order, and says of which kind it is.

### C137 Each resource has a section with its title, definition and IRI

* Approach: A reader of the blocks that finds the beginnings of sections, run over each part.
* Status: proved.
* `C137_sections` (DocumentSections.lean): C137, the sections of a document: first the one about the thesaurus, then one for each concept in their order, then one for each collection in theirs, each with the kind and the title of the resource, its first definition in the language of the document, and its IRI.
* `C137_rows` (DocumentSections.lean): C137, the contents: the tables of labels and of properties of a document have a row for each label and each property of the thesaurus and of the concepts and collections with a section, and no other.

### C138 A document is made of every thesaurus

* Approach: Which IRIs the document asks for, and C08 for those that cannot be divided.
* Status: partial. Fails for labels, properties and external relations named by a URN, for which the division of the IRI panics (C138_fails). C138_iff says exactly when, C138_partial that there is no other way to panic.
* `C138_iff` (DocumentSections.lean): C138: exactly when making a document panics though its parts can be written: when it needs a short name for an undivided IRI.
* `C138_partial` (DocumentSections.lean): C138, what holds: a document is made if no label, property or external relation of the thesaurus brings an undivided IRI.
* `C138_fails` (DocumentSections.lean): C138 fails for a thesaurus with a property whose name is a URN.
* `C138_names` (DocumentSections.lean): C138, the short names: what a document shows for an IRI with a prefix is the prefix and the name that the mappings expand to the IRI.

### C139 N-Triples documents can be joined

* Approach: The exact lines of C71; a document that ends with the end of a line leaves nothing open, so lines of both are lines of the whole.
* Status: partial. Fails if the first document ends within a line: in a comment, or with a blank node whose label can go on (C139_fails, C139_fails_label). C139_partial gives what is read behind any document that ends with the end of a line (C139_quads for N-Quads); all written documents do (C139_written). C139_order and C139_order_quads: the order of lines does not matter. C139_many is for any number of documents.
* `C139_fails` (NTJoin.lean): C139 fails: a comment without the end of its line takes the next line with it.
* `C139_fails_label` (NTJoin.lean): Nor are they without comments: a label takes the beginning of the next line.
* `C139_partial` (NTJoin.lean): C139, after a document that is read and ends with the end of a line: exactly what becomes of anything behind it.
* `C139_stmts` (NTJoin.lean): The statements of the document joined, in order and as often as in the two.
* `C139_quads` (NTJoin.lean): C139 for N-Quads: under each name, the statements of both; and an error or a panic behind stays one.
* `C139_written` (NTJoin.lean): Documents that are written can be joined.
* `C139_many` (NTJoin.lean): C139 for any number of documents: read one after the other they give the statements of all, in order.
* `C139_order` (NTQuads.lean): C139: the order of the lines of a document does not matter for what it says.
* `C139_order_quads` (NTQuads.lean): C139, the same for N-Quads and each graph.

### C140 A graph that is read holds each statement once

* Approach: One statement per line, by induction over the lines; two are equal exactly if the lines mean the same.
* Status: partial. Fails for a repeated line (C140_fails). C140_lines: one statement for each line, in order. C140_iff: each is held once exactly if no two lines stand for the same statement. Writing makes them one again (C140_written).
* `C140_fails` (NTJoin.lean): C140 fails: a line that is repeated is held twice.
* `C140_lines` (NTJoin.lean): C140, what is held instead: a statement for each line, in order, that of the line.
* `C140_iff` (NTJoin.lean): C140, exactly when: no two lines stand for the same statement.
* `C140_written` (NTJoin.lean): What is written of it holds each once again.

### C141 Options are what the last call about them said

* Approach: Each call says something about an option or nothing; by induction over the calls.
* Status: proved.
* `C141_turtle` (Options.lean): C141: each option of the Turtle writer has the value that was given to it last.
* `C141_panic` (Options.lean): C141, when calls panic: exactly if the width is set to 0.
* `C141_dot` (Options.lean): C141 for DOT.
* `C141_xml` (Options.lean): C141 for RDF/XML.
* `C141_trig` (Options.lean): C141 for TriG; options made of those of Turtle have the keyword again.
* `C141_flag` (Options.lean): C141 for JSON and N-Triples.
* `C141_defaults` (Options.lean): C141, what the options are before the first call: the documented values.

### C142 The two functions for an option do the same

* Approach: Pairs of functions, one by one.
* Status: partial. Fails for the style of IntelliJ, which sets the width in one of the two (C142_fails), and for a width of 0, which panics in one of the two (C142_fails_zero). C142_iff: in no other case.
* `C142_fails` (Options.lean): C142 fails: the style of IntelliJ sets the width, or not.
* `C142_fails_zero` (Options.lean): C142 fails: a width of 0 panics, or not.
* `C142_iff` (Options.lean): C142, exactly when: unless the style is chosen with another width, or the width is 0.

### C143 All options can be chosen

* Approach: An invariant of all calls, and calls that reach everything else.
* Status: partial. Fails: `a` for types, converted bases and the column of the end of collections cannot be chosen (C143_fails). C143_iff: everything else can. C143_verb: so `a` is never written.
* `C143_iff` (Options.lean): C143, exactly which: those with the predicate for types in full, no base converted, and collections ended in their own column. A width of 0 is among them.
* `C143_fails` (Options.lean): C143 fails: `a` cannot be chosen for the predicate of types.
* `C143_verb` (Options.lean): C143: so no writer whose options were made with the functions writes `a`: the verb of a type is the compressed IRI.
* `C143_others` (Options.lean): The other options of DOT and RDF/XML can all be chosen.

### C144 Predicates are padded if this was chosen

* Approach: Objects written as a mark; the columns of marks in the text, by induction over the predicates.
* Status: partial. Fails: the option is used the wrong way round, with it there is no padding (C144_fails), and without it there is (C144_without). C144_iff says exactly when objects are in one column with it.
* `C144_iff` (TurtlePadding.lean): C144, exactly when: with the option, only if all verbs have the same length; each is followed by one space.
* `C144_without` (TurtlePadding.lean): C144, without the option: the objects are in one column, one behind the longest verb.
* `C144_fails` (TurtlePadding.lean): C144 fails: with the option, there is no padding.
* `C144_fails_without` (TurtlePadding.lean): Without the option, there is.

### C145 Small queries of SPARQL are read

* Approach: No parser reads a brace: each part of the parser is shown to avoid braces, by induction where it repeats.
* Status: partial. The file is not compiled: it calls `choice()` without alternatives, taken here as a parser that always fails, and `integer`, which does not exist and is any parser that reads no brace here. Fails for all such queries (C145_fails_all): no text with a brace is read (C145_never). C145_values: what is read ends with the word OFFSETVALUES, two words of the grammar written as one. C145_fails_two: two variables with a space between them are not read. All that a `HAVING` clause can be is described by `C145_having`; the parts that are not implemented use up nothing (`C145_nothing`).
* `C145_never` (SparqlQuery.lean): C145: no text with a brace is used up, so none with a group of patterns, which all queries but descriptions have.
* `C145_fails_all` (SparqlQuery.lean): C145 fails for each of them.
* `C145_fails` (SparqlQuery.lean): C145 fails.
* `C145_values` (SparqlQuery.lean): C145, what is used up instead: texts that end with a word that is not in the grammar, written as one.
* `C145_star` (SparqlQuery.lean): C145, what is used up: `SELECT`, perhaps `DISTINCT` or `REDUCED`, and `*`.
* `C145_dataset` (SparqlQuery.lean): C145, what is used up: a data set, with or without `NAMED`.
* `C145_fails_two` (SparqlQuery.lean): Two variables are not used up either, even with that word.
* `C145_having` (SparqlQuery.lean): C145: all that a `HAVING` clause can be is the word alone.
* `C145_nothing` (SparqlQuery.lean): C145: the expressions and the patterns are not looked at.

### C146 Small updates of SPARQL are read

* Approach: An update is a prologue exactly; references to graphs by the exact parsers of keywords and IRIs.
* Status: partial. The file is not compiled, as for C145. Fails: an update is read as a prologue and nothing more (C146_prologue, C146_fails). References to graphs are exact (C146_graph_iff, C146_words_iff), and prefixed names are none (C146_fails_prefixed).
* `C146_prologue` (SparqlQuery.lean): C146, what is used up instead: the prologue and nothing more.
* `C146_fails` (SparqlQuery.lean): C146 fails: for each text that begins with another letter than a declaration.
* `C146_graph_iff` (SparqlQuery.lean): C146, references to graphs, exactly which are used up: those of the grammar with an IRI in brackets.
* `C146_fails_prefixed` (SparqlQuery.lean): C146: a prefixed name, which the grammar has, is none.
* `C146_words_iff` (SparqlQuery.lean): C146: the words for more than one graph, exactly where they stand.

### C147 The trace of an error shows it and its causes

* Approach: By induction over the chain of messages; a line is cancelled at its first newline.
* Status: partial. Fails for every error: there are as many empty lines at the end as messages (C147_fails_all, C147_exact). The cause of an error of a tokenizer is not named as its source (C147_source_iff, C147_fails_tokenizer). C147_unique: messages without line breaks can be told from the trace; with line breaks they cannot (C147_fails_unique).
* `C147_exact` (ErrorTrace.lean): C147, exactly: behind the lines there are as many empty lines as there are messages.
* `C147_fails_all` (ErrorTrace.lean): C147 fails for every error.
* `C147_fails` (ErrorTrace.lean): C147 fails.
* `C147_source_iff` (ErrorTrace.lean): C147, the causes: an error made of another names it as its source unless a tokenizer failed.
* `C147_fails_tokenizer` (ErrorTrace.lean): C147 for a tokenizer: the trace is one message, whatever the causes of the failure.
* `C147_chain` (ErrorTrace.lean): C147 for the others that are made of an error: the messages are its own, that of the error and those of the causes of that.
* `C147_unique` (ErrorTrace.lean): C147: messages of one line each can be told from the trace.
* `C147_fails_unique` (ErrorTrace.lean): C147: others cannot, two errors with different numbers of causes have the same trace.

### C148 The message of an error tells its kind

* Approach: A function that tells the kind of a message by its beginning or end.
* Status: proved. C148_fields: the texts in an error cannot always be told from the message. Messages contain the texts of errors; a text that is the only one, and the list of what a parser expected, can be told from the message.
* `C148_list` (ErrorMessage.lean): C148: the debug output of a list of texts is that list and no other.
* `C148_texts` (ErrorMessage.lean): C148: messages have the texts of errors in them, some in quotes.
* `C148_expected` (ErrorMessage.lean): C148: what a parser expected can be told from the end of the message, when what was given has no quote in it.
* `C148_single` (ErrorMessage.lean): C148: a text that is the only one of its message can be told from it.
* `C148_message` (ErrorTrace.lean): C148: the kind of an error can be told from its message.
* `C148_kind` (ErrorTrace.lean): C148: errors with the same message are of the same kind.
* `C148_fields` (ErrorTrace.lean): C148: the fields of an error cannot be told from its message in general.

### C149 N-Triples and N-Quads agree

* Approach: Grammar inclusion by induction on lines; the two evaluations as one pass over statements (shared with C139), slices by induction; the default graph is an error for each document that says anything.
* Status: partial. Every document of N-Triples is in the grammar of N-Quads, but the reader refuses each that says anything (C149_fails_each, C149_iff); per named graph the readers agree in order and number (C149_slices, C149_slices_text), and so do the writers (C149_written), so the text of a default graph is not read back (C149_fails_written).
* `C149_grammar` (NTQuads.lean): C149, the grammar: the documents of N-Triples are those of N-Quads without graphs.
* `C149_fails_each` (NTQuads.lean): C149 fails for each document that says anything: it is an error as N-Quads.
* `C149_iff` (NTQuads.lean): C149, exactly when: the document says nothing.
* `C149_fails` (NTQuads.lean): C149 fails: one statement is an error.
* `C149_slices` (NTQuads.lean): C149, the other way: a document of N-Quads that is read says of each graph, in order and as often, what the lines about the graph say as N-Triples.
* `C149_slices_text` (NTQuads.lean): C149, there are such texts for each graph of each document of N-Quads.
* `C149_written` (NTQuads.lean): C149, the writers: a graph without name is written the same.
* `C149_fails_written` (NTQuads.lean): So the text of a data set with statements in the default graph only is read by the reader of N-Triples, not by that of N-Quads.

### C150 Converting again changes nothing

* Approach: Iterate the command; what is read after k conversions is what was read with literals escaped k times (induction, reusing C38); escaping what is already printable doubles quotes plus backslashes, so the text is exponential in k.
* Status: partial. Fails in either style: with brackets no document with a statement can be converted twice (C150_fails_bracketed); without, literals are escaped once more each time (C150_reads), the backslashes double (C150_doubles), and the text grows exponentially (C150_long). C150_iff: a graph is kept exactly when no literal has a quote or a backslash.
* `C150_reads` (Again.lean): C150, what is read after any number of conversions: the statements that were read at first, with the texts of literals escaped as many times.
* `C150_doubles` (Again.lean): C150: how much there is to read in a literal after a number of conversions. Together the quotes and the backslashes are `n` at first; afterwards all but the quotes are backslashes, and they double each time.
* `C150_long` (Again.lean): C150, the length of the text: with one quote or backslash in a literal that was read, it is exponential in the number of conversions.
* `C150_iff` (Again.lean): C150: with IRIs printed without brackets, the graph of a document is the same after a number of conversions if and only if no literal has a quote or a backslash; one conversion is as good as many.
* `C150_fails_bracketed` (Again.lean): C150, in the style the code has: no document with a statement can be converted twice.
* `C150_fails` (Again.lean): C150 fails in either style: with brackets the text is not read at all, without them the escape is escaped again.
* `C150_keeps_partial` (Again.lean): C150, what holds: what has no quote and no backslash in a literal is kept by any number of conversions.
* `C150_at_most` (NtSize.lean): C150, the length from above: each conversion makes the text at most `c` times as long.

### C151 Durations of chrono

* Approach: An independent reader of signed durations; the loop that drops zeros is handled by induction on the number of figures.
* Status: proved. C151_denotes, C151_equals, C151_injective hold for every duration. C151_std and C151_across: exactly where From<Duration> writes the same text; C151_not_std: never equal to a std::time::Duration.
* `C151_denotes` (Chrono.lean): C151: the text of every duration of `chrono`, negative ones included, denotes the duration.
* `C151_equals` (Chrono.lean): C151: a literal made of a duration of `chrono` compares equal to that duration and to no other.
* `C151_injective` (Chrono.lean): C151: literals of different durations are different.
* `C151_std` (Chrono.lean): C151: for a duration that both libraries have, the two literals have the same text exactly when there are no nanoseconds but some seconds, or at least a tenth of a second of them and the last of the nine decimals is not zero.
* `C151_across` (Chrono.lean): C151: a literal of a duration of the standard library compares equal to the same duration of `chrono` exactly when the two have the same text.
* `C151_not_std` (Chrono.lean): C151: a literal of a duration of `chrono` never compares equal to a duration of the standard library.

### C152 Printed prefix maps and references

* Approach: Printed lines are taken apart at the first space; two sorted lists with the same members are the same.
* Status: proved. C152_map_iff, C152_lines, C152_ref_iff, C152_ref_alternate, C152_prefix. Prefixes and IRIs are without spaces, as those that were parsed are.
* `C152_prefix` (PrefixText.lean): C152: a prefix that was read has no space and no line break in it.
* `C152_map_iff` (PrefixText.lean): C152: two prefix maps print the same exactly when every prefix has the same IRI in both, however they were made.
* `C152_lines` (PrefixText.lean): C152: the text has one line for each mapping, in the order of the prefixes, and two more.
* `C152_ref_iff` (PrefixText.lean): C152: two references print the same exactly when they are the same.
* `C152_ref_alternate` (PrefixText.lean): C152: in the alternate form exactly an IRI and the name with its text are confused.

### C153 Turtle converted from N-Triples

* Approach: What the N-Triples reader makes meets the conditions of C129; the prefixes of a new graph are those of C46; a text whose beginning cannot be read cannot be read.
* Status: partial. C153_iff, C153_fails, C153_fails_bracketed, C153_partial. Parsed IRIs are taken to have a scheme and no character that the crate escapes, and no IRI of the graph is one on which splitting panics. That the IRIs can be divided is no hypothesis: it follows from the text having been written (written_prints, written_split).
* `C153_iff` (ConvertTurtle.lean): C153, exactly, for the graph that was read: with IRIs written as they are, the Turtle text says the graph if and only if no predicate is one of the three written as `rdf:type`, and a blank node that is an object is no subject and the object of one statement only.
* `C153_fails_bracketed` (ConvertTurtle.lean): C153, with the brackets the code writes twice: whatever the document and its format are, the text is no Turtle.
* `C153_fails` (ConvertTurtle.lean): C153 fails in either style: two statements about one unnamed thing are written as two about two things, and with brackets written twice nothing can be read.
* `C153_partial` (ConvertTurtle.lean): C153, what holds.

### C154 Other bases in Turtle

* Approach: The printed prefixes are a relation on texts (Rebased); what is printed is compared with what C46 needs.
* Status: partial. C154_prefix, C154_iff, C154_fails (one pair moves an IRI under a prefix that is moved too), C154_fails_chain (pairs are applied one after the other to IRIs and one only to prefixes), C154_partial. No call of the public interface sets these pairs (C143_iff).
* `C154_prefix` (TurtleBases.lean): C154: the bases written for prefixes are those asked for: each is under the first base that applies.
* `C154_iff` (TurtleBases.lean): C154, exactly, for one pair of bases: what is written for an IRI stands for it under the other base, unless it is written with a prefix whose own IRI is moved to the other base too, or with one that is no prefix, or for an empty fragment.
* `C154_fails` (TurtleBases.lean): C154 fails: the IRI is moved under the base of a prefix, and the prefix is moved once more.
* `C154_fails_chain` (TurtleBases.lean): C154 fails also without prefixes in use: pairs are applied one after the other to IRIs, but one only to prefixes.
* `C154_partial` (TurtleBases.lean): C154, what holds: without a prefix for it, the IRI under the other base is written in full.

### C155 N-Triples documents as Turtle

* Approach: What is read (C83) and what is written (C153) are put together; if every escaped literal were said by another, lengths would grow without end.
* Status: partial. C155_iff, C155_fails, C155_partial. With the brackets the code writes twice nothing can be read (C153_fails_bracketed). No hypothesis on dividing IRIs: it follows from the text having been written.
* `C155_iff` (ConvertMeaning.lean): C155, exactly: the Turtle text that a document of N-Triples is converted to, with IRIs once in brackets, says what the document says if and only if no literal has anything to escape, no predicate is one of the three written as `rdf:type`, and a blank node that is an object is no subject and the object of one triple only.
* `C155_fails` (ConvertMeaning.lean): C155 fails in either style.
* `C155_partial` (ConvertMeaning.lean): C155, what holds.

### C156 N-Triples documents as RDF/XML

* Approach: What is read (C83) and what is written (C75) are put together; that the events stand for one list of triples only (C75_unique) gives the converse.
* Status: partial. C156_iff, C156_fails, C156_fails_bracketed, C156_fails_twice, C156_partial. The text itself is made by the XML crate; what the crate is given is taken as in C74.
* `C156_iff` (ConvertXml.lean): C156, exactly: a document of N-Triples whose triples RDF/XML can say is converted, and, with IRIs printed without brackets, the result says what the document says if and only if no literal has anything to escape and no property of a known namespace has two values at a subject.
* `C156_fails_bracketed` (ConvertXml.lean): In the style of the code no document with a triple is well formed RDF/XML.
* `C156_fails` (ConvertXml.lean): C156 fails in either style.
* `C156_fails_twice` (ConvertXml.lean): C156 fails for two names of a person.
* `C156_partial` (ConvertXml.lean): C156, what holds.

### C157 N-Triples documents as N-Triples

* Approach: The written lines are shown to be lines of the grammar that mean the statements (escape sequences of the writer decode to the text); decoding is a function, so the output says one set of triples; a chain of ever longer literals gives the converse.
* Status: partial. C157_unique, C157_says, C157_iff, C157_fails, C157_fails_bracketed, C157_partial. Unlike C86 the result is judged by the grammar: a literal with a tab is read wrongly (C83) and yet the converted document is right, since writer and reader take back each other's mistake.
* `C157_unique` (NTSays.lean): A document of N-Triples says one set of triples.
* `C157_says` (NTSays.lean): C157, what is said in general, with IRIs once in brackets: what the document says, but for literals, which have the insides of the quotes as they stand.
* `C157_iff` (NTSays.lean): C157, exactly: a document of N-Triples converted to N-Triples, with IRIs once in brackets, says what it said if and only if no literal has an escape.
* `C157_fails_bracketed` (NTSays.lean): In the style of the code the result is no document of N-Triples, if there is a triple.
* `C157_fails` (NTSays.lean): C157 fails in either style.
* `C157_partial` (NTSays.lean): C157, what holds.

### C158 N-Triples documents as RDF/JSON

* Approach: What is read (C83) and the entries of what is written are put together; that an entry means one triple (C127_unique) and that labels would get ever shorter gives the converse.
* Status: partial. C158_iff, C158_fails, C158_fails_bracketed, C158_partial.
* `C158_iff` (ConvertJson.lean): C158, exactly: a document of N-Triples converted to RDF/JSON, with IRIs once in brackets, says what it said if and only if no subject is an IRI, no object a blank node, and no literal has anything to escape.
* `C158_fails_bracketed` (ConvertJson.lean): In the style of the code the result says nothing, if there is a triple.
* `C158_fails` (ConvertJson.lean): C158 fails in either style: an IRI as subject is enough.
* `C158_partial` (ConvertJson.lean): C158, what holds.

### C159 RDF/JSON documents as N-Triples

* Approach: What is read (C127) is put together with the lines written; every line is the line of a statement whose literal has been unescaped. A line with a number stops the reader, so by C83 it is no document.
* Status: partial. C159_iff (texts of numbers do not start like other terms and those of xsd:anyURI are IRIs), C159_fails, C159_fails_bracketed, C159_partial.
* `C159_iff` (JsonNTriples.lean): C159, exactly: a document of RDF/JSON converted to N-Triples, with IRIs once in brackets, says what it said if and only if it has no booleans, no numbers of the types that are written without quotes, and no `xsd:anyURI`. The texts of such numbers do not start like other terms, and those of such IRIs are IRIs.
* `C159_fails_bracketed` (JsonNTriples.lean): In the style of the code the result is no document of N-Triples, if there is a triple.
* `C159_partial` (JsonNTriples.lean): C159, what holds: literals may have anything in them that is printed or written by one letter.
* `C159_fails` (JsonNTriples.lean): C159 fails in either style: an integer is written without quotes.

### C160 RDF/JSON documents written again

* Approach: What is read (C127) is put together with the entries written (C158); a finite set of texts closed under escaping has nothing to escape.
* Status: partial. C160_iff, C160_fails, C160_fails_bracketed, C160_again, C160_partial.
* `C160_iff` (JsonJson.lean): C160, exactly: a document of RDF/JSON written again, with IRIs without brackets, says what it said if and only if no subject is an IRI, no object a blank node and no text of a literal has anything to escape.
* `C160_fails_bracketed` (JsonJson.lean): In the style of the code the result says nothing, if there is a triple.
* `C160_fails` (JsonJson.lean): C160 fails in either style: an IRI as subject is enough.
* `C160_partial` (JsonJson.lean): C160, what holds.
* `C160_again` (JsonJson.lean): C160: what is written rightly is written rightly ever after, and the same triples are said.

### C161 RDF/JSON documents as RDF/XML

* Approach: What is read (C127) is put together with what the events say (C75), for any graph whose triples tell its statements.
* Status: partial. C161_iff, C161_fails, C161_fails_bracketed, C161_partial.
* `C161_iff` (JsonXml.lean): C161, exactly: a document of RDF/JSON whose triples RDF/XML can say is converted, and, with IRIs printed without brackets, the result says what the document says if and only if no literal has anything to escape and no property of a known namespace has two values at a subject.
* `C161_fails_bracketed` (JsonXml.lean): In the style of the code no document with a triple is well formed RDF/XML.
* `C161_partial` (JsonXml.lean): C161, what holds.
* `C161_fails` (JsonXml.lean): C161 fails in either style: a line feed in a literal becomes a backslash and a letter.

### C162 RDF/JSON documents as Turtle

* Approach: What is read (C127) is put together with what the Turtle text says (C129); literals are kept by isomorphisms, so escaping maps the texts of the document to themselves and a number keeps its type.
* Status: partial. C162_iff (numbers without quotes are numbers of Turtle, no xsd:anyURI, the writer ends), C162_fails, C162_partial; brackets by C153_fails_bracketed. No hypothesis on dividing IRIs: it follows from the text having been written (terms_split).
* `C162_iff` (JsonTurtle.lean): C162, exactly: the Turtle text that a document of RDF/JSON is converted to, with IRIs once in brackets, says what the document says if and only if no literal has anything to escape, the numbers and truth values of types written without quotes are of the type that Turtle gives them, no predicate is one of the three written as `rdf:type`, and a blank node that is an object is no subject and the object of one triple only. The texts of those numbers are numbers of Turtle, and there is no `xsd:anyURI`.
* `C162_partial` (JsonTurtle.lean): C162, what holds.
* `C162_fails` (JsonTurtle.lean): C162 fails in either style: the type of an integer is another.

### C163 RDF/XML documents as N-Triples

* Approach: An invariant of the reader's stack gives the shape of every statement read: IRIs the environment parses, labels, escaped printed texts, no types but XML literals. The lines of such statements are of the grammar and mean them (as for C159).
* Status: partial. C163_reads, C163_iff, C163_fails_bracketed, C163_fails (types), C163_partial (two levels, nothing escaped). How texts become events is a parameter; node identifiers do not begin with _:.
* `C163_reads` (XmlNTriples.lean): C163: a document of RDF/XML that is read, converted to N-Triples, says what was read.
* `C163_iff` (XmlNTriples.lean): C163, exactly: a document of RDF/XML converted to N-Triples, with IRIs once in brackets, says certain triples if and only if it is read, and the statements stand for them: the texts of literals, which the reader escapes, are as they were again.
* `C163_fails_bracketed` (XmlNTriples.lean): In the style of the code the result is no document of N-Triples, if anything is read.
* `C163_partial` (XmlNTriples.lean): C163, what holds: documents of two levels whose names and values are read as they are and whose texts have nothing to escape.
* `C163_fails` (XmlNTriples.lean): C163 fails: a type is not read.

### C164 RDF/XML documents as RDF/JSON

* Approach: The invariant of C163 and the lemma of C158 on what the writer's members mean.
* Status: partial. C164_iff (triples without blank objects), C164_fails_bracketed, C164_fails (an IRI as subject), C164_partial (two levels, blank subjects).
* `C164_iff` (XmlJson.lean): C164, exactly: a document of RDF/XML converted to RDF/JSON, with IRIs without brackets, says certain triples, none with a blank node as object, if and only if it is read, the statements stand for them, and no subject is an IRI.
* `C164_fails_bracketed` (XmlJson.lean): In the style of the code the result says nothing, if anything is read.
* `C164_fails` (XmlJson.lean): C164 fails in either style: an IRI as subject is enough.
* `C164_partial` (XmlJson.lean): C164, what holds: documents of two levels whose names and values are read as they are and whose subjects are blank nodes.

### C165 RDF/XML documents written again

* Approach: The invariant of C163 and the lemma of C161 on what the writer's events mean; statements read are told apart by their triples.
* Status: partial. C165_iff (what is read can be said in RDF/XML), C165_fails_bracketed, C165_fails (types), C165_partial (two levels).
* `C165_iff` (XmlXml.lean): C165, exactly: what is read from a document of RDF/XML is written again, if RDF/XML can say it, and, with IRIs printed without brackets, the result says certain triples if and only if the statements read stand for them and no property of a known namespace has two values at a subject.
* `C165_fails_bracketed` (XmlXml.lean): In the style of the code no document in which anything is read becomes well formed RDF/XML.
* `C165_partial` (XmlXml.lean): C165, what holds: documents of two levels whose names and values are read as they are, in which no property of a known namespace has two values at a subject.
* `C165_fails` (XmlXml.lean): C165 fails in either style: a type is not read.

### C166 RDF/XML documents as Turtle

* Approach: The invariant of C163 and C129_iff; what is read has no blank objects and no numbers.
* Status: partial. C166_iff (the writer ends), C166_fails, C166_partial (two levels); brackets by C153_fails_bracketed. No hypothesis on dividing IRIs: it follows from the text having been written (terms_split).
* `C166_iff` (XmlTurtle.lean): C166, exactly: the Turtle text that a document of RDF/XML is converted to, with IRIs once in brackets, says the triples that the statements read stand for if and only if no predicate is one of the three written as `rdf:type`.
* `C166_partial` (XmlTurtle.lean): C166, what holds: documents of two levels whose names and values are read as they are, without the three predicates.
* `C166_fails` (XmlTurtle.lean): C166 fails in either style: the property `rdfs:subClassOf` is written as `rdf:type`.

### C167 N-Quads documents written again

* Approach: As C157 with graph names: the written lines are lines of the grammar that mean the statements of the data set; uniqueness by the matched lines, so that it holds for the default graph too.
* Status: partial. C167_unique, C167_says, C167_iff, C167_fails, C167_fails_bracketed, C167_partial.
* `C167_unique` (NQSays.lean): A document of N-Quads says one set of quads.
* `C167_says` (NQSays.lean): C167, what is said in general, with IRIs once in brackets, if all statements are in named graphs: what the document says, but for literals, which have the insides of the quotes as they stand.
* `C167_iff` (NQSays.lean): C167, exactly: a document of N-Quads read and written, with IRIs once in brackets, says what it said if and only if all its statements are in named graphs and no literal has an escape.
* `C167_fails_bracketed` (NQSays.lean): In the style of the code the result is no document of N-Quads, if there is a statement.
* `C167_fails` (NQSays.lean): C167 fails in either style, for one statement of a named graph with an escape.
* `C167_partial` (NQSays.lean): C167, what holds.

### C168 Skolemized graphs follow and are followed

* Approach: define simple interpretations, prove the interpolation lemma with the Herbrand interpretation, show that simplify and skolemize commute when no blank node is nested; counterexample with a member of a collection
* Status: partial. Simple entailment is defined from interpretations (Spec/Entail.lean), not from instances; C168_interpolation is the lemma of the W3C document. C168_fails: a blank node in a collection keeps its label while its other occurrences become an IRI. C168_fails_used: with a new IRI that is already in the graph more follows.
* `C168_interpolation` (Entail.lean): C168, the interpolation lemma of RDF 1.1 Semantics: a graph follows from another exactly when an instance of it is a part of the other.
* `C168_partial` (Entail.lean): C168: the graph follows from the one with IRIs for its blank nodes, if no blank nodes are nested.
* `C168_iff` (Entail.lean): C168, nothing more follows: what does not mention the new IRIs follows from the graph with IRIs for its blank nodes exactly when it follows from the graph, if no blank nodes are nested and the new IRIs were not in use.
* `C168_fails` (Entail.lean): C168 fails: a member of a collection keeps its label, and what is said of it does not.
* `C168_fails_used` (Entail.lean): C168, with a new IRI that was in use already: more follows from the graph with IRIs.

### C169 Turtle follows from the graph

* Approach: the renaming of C129_says is an instance mapping, so interpolation gives entailment; predicates of the text are never those written as rdf:type
* Status: partial. C169_sound holds with shared and nested blank nodes, where C129 and C153 fail: the text then says less, never more. C169_iff is exact for graphs without blank nodes as objects. C169_fails_type: rdfs:subClassOf becomes rdf:type, which does not follow. The same soundness is shown for Turtle made from RDF/JSON and RDF/XML documents (`C169_json_partial`, `C169_json_iff`, `C169_xml_iff`), with exactly the literals that are not printed well as the exceptions.
* `C169_sound` (Entail.lean): C169: what the Turtle text of a graph says follows from the graph, whatever becomes of its blank nodes, if no predicate is written as another.
* `C169_needs` (Entail.lean): C169, a graph with a predicate that is written as another does not follow from its text.
* `C169_iff` (Entail.lean): C169, exactly, for graphs without blank nodes as objects or text without nested nodes: text and graph follow from each other if and only if no predicate is written as another.
* `C169_partial` (Entail.lean): C169, half of it: the Turtle that was written follows from the graph that was read, if no predicate is written as another.
* `C169_nt_iff` (Entail.lean): C169 for documents of N-Triples without blank nodes as objects, exactly: graph and Turtle text follow from each other if and only if no predicate is written as another.
* `C169_fails` (Entail.lean): C169 fails: one unnamed thing with two descriptions becomes two; and nothing can be read with the brackets of the code.
* `C169_fails_type` (Entail.lean): C169, the condition on predicates is needed: that a class is part of another becomes that it is a member of it, and this does not follow.
* `C169_json_partial` (EntailJson.lean): C169 for RDF/JSON: the Turtle that a document is converted to follows from what the document says, whatever it says of blank nodes, if nothing is escaped, numbers have the type that Turtle gives them and no predicate is written as another.
* `C169_json_needs` (EntailJson.lean): C169 for RDF/JSON, for all documents: if document and Turtle text follow from each other, nothing is escaped, numbers have the type that Turtle gives them and no predicate is written as another.
* `C169_json_iff` (EntailJson.lean): C169 for RDF/JSON, exactly, for documents without blank nodes as objects: document and Turtle text follow from each other if and only if nothing is escaped, numbers have the type that Turtle gives them and no predicate is written as another.
* `C169_xml_iff` (EntailJson.lean): C169 for RDF/XML: the Turtle that a document is converted to and the triples that were read follow from each other if and only if no predicate is written as another.

### C170 Nested RDF/XML follows from the graph

* Approach: the relabelling of C80_says is an instance mapping, so interpolation gives entailment; a lost statement refutes the other half
* Status: partial. C170_sound holds for shared and unreached nodes, where C80 fails. C170_fails: statements about nodes that nothing refers to are lost.
* `C170_sound` (EntailXml.lean): C170, half of it: what nested RDF/XML says follows from the graph, whatever becomes of its blank nodes.
* `C170_partial` (EntailXml.lean): C170: text and graph follow from each other if every blank node is reached from an IRI and is the object of one statement only.
* `C170_fails` (EntailXml.lean): C170 fails: what is said of a blank node that nothing refers to is lost.

### C171 Documents can be converted to Turtle

* Approach: an IRI prints exactly when it can be divided, in either style; with C67_iff and what the readers make of documents this gives the exact condition in terms of the triples of the document
* Status: partial. C171_fails: a document with urn:a is not converted, at any depth. C171_fails_endless: nor is a blank node that is its own value. C171_iff, C171_json_iff and C171_xml_iff are exact for the three formats; together with C155, C162 and C166, which assume success, they say for every document what becomes of it. C171_partial: IRIs with an authority or an absolute path, and no blank node both subject and object.
* `C171_iff` (ConvertSucceeds.lean): C171, exactly, for N-Triples: in either style, and with enough room for nested blank nodes, a document is converted to Turtle if and only if all its IRIs can be divided and no blank node starts an endless chain of blank nodes.
* `C171_json_iff` (ConvertSucceeds.lean): C171, exactly, for RDF/JSON: also the texts of literals of type `xsd:anyURI`, as they are read, are IRIs that can be divided.
* `C171_xml_iff` (ConvertSucceeds.lean): C171, exactly, for RDF/XML without nested nodes: all IRIs can be divided.
* `C171_fails` (ConvertSucceeds.lean): C171 fails in either style: a document with `urn:a` is not converted, whatever the room.
* `C171_fails_endless` (ConvertSucceeds.lean): C171 fails in either style also with IRIs that can be divided: a blank node that is its own value is written without end.
* `C171_partial` (ConvertSucceeds.lean): C171, what holds: IRIs with an authority or an absolute path, and blank nodes that are objects or subjects but not both.

### C172 Documents can be drawn and converted

* Approach: documents are read as graphs with the predicates of their triples; C64, C81 and C73 say exactly when the writers refuse or panic
* Status: partial. C172_fails and C172_fails_draw: the predicate urn:p. C172_xml_iff assumes predicates of ASCII characters, which the URL parser guarantees. C172_partial collects what holds. Turtle is C171.
* `C172_texts` (ConvertAll.lean): C172: a document that says triples is always converted to N-Triples, N-Quads, TriG and RDF/JSON.
* `C172_xml_iff` (ConvertAll.lean): C172, exactly, for RDF/XML: it is converted if and only if every predicate has a `#` or a `/`.
* `C172_draw_iff` (ConvertAll.lean): C172, exactly, for diagrams: it is drawn if and only if every predicate can be divided.
* `C172_fails` (ConvertAll.lean): C172 fails: with the predicate `urn:p` neither RDF/XML is written nor a diagram drawn.
* `C172_fails_draw` (ConvertAll.lean): C172 fails for diagrams alone.
* `C172_partial` (ConvertAll.lean): C172, what holds: predicates of ASCII characters that have a `#` or `/` and can be divided.

### C173 The length of Turtle text

* Approach: walks of statements through blank nodes are counted by recursion on the fuel; the text of an object is bounded below by the brackets of the chains after it and above by the walks after it; 2n lines give 2^n chains
* Status: partial. C173_doubles: a document of at most 50·n(n+1) characters gives text of at least 2^n; so C173_fails in either style. C173_brackets and C173_walks bound the text from below and above for every graph; C173_partial and C173_labels are the cases in which it is linear.
* `C173_brackets` (TurtleSize.lean): C173, from below: in the text a bracket is opened for each chain of statements through blank nodes.
* `C173_walks` (TurtleSize.lean): C173, from above: the text is no longer than the directives and, for each walk of statements through blank nodes, a line as long as its nodes and the depth of the nesting require.
* `C173_partial` (TurtleSize.lean): C173, what holds: if no blank node is both subject and object the text is no longer than the directives and one line for each statement.
* `C173_labels` (TurtleSize.lean): C173, with labels: if blank nodes are not nested the text is no longer than the directives and one line for each statement.
* `C173_doubles` (TurtleSize.lean): C173, how long it is: from a document of fewer than `50 (n + 1)²` characters Turtle text of more than `2 ^ n` characters is written.
* `C173_fails` (TurtleSize.lean): C173 fails in either style: the text grows faster than every polynomial.

### C174 How much RDF/XML is written

* Approach: the events of a subject are bounded by sums over the statements about it; induction on the depth turns them into the number of walks, and success at a depth shows that the list of walks is complete
* Status: partial. C174_doubles: 2n+1 statements give at least 2^n events in the nested style; so C174_fails in either style of IRIs. C174_nested and C174_flat bound the events from below and above; C174_partial is the linear case.
* `C174_nested` (XmlSize.lean): C174, in the nested style: there are the walks from resources through blank nodes, and the events are two for each resource and two to four for each walk.
* `C174_flat` (XmlSize.lean): C174, in the flat style: two events for each subject, and two or three for each statement.
* `C174_partial` (XmlSize.lean): C174, what holds: in the flat style, and if no blank node is both subject and object, at most six events for each statement.
* `C174_doubles` (XmlSize.lean): C174, how much it is: from `2 n + 1` statements more than `2 ^ n` events are written in the nested style.
* `C174_fails` (XmlSize.lean): C174 fails in either style of IRIs.

### C175 How the Turtle writer ends when it does not succeed

* Approach: carry through the writer a description of which failures are possible, one lemma for each function of the writer, by induction on the depth and along the chains of blank nodes.
* Status: partial. The statement fails: the division of an IRI without a hierarchical path panics (`C175_fails`), and with padding an error among predicates that are sorted becomes a panic (`C175_fails_sorted`; alone it is an error, `C175_single`). Proved: where every panic and every error comes from (`C175_panic`, `C175_error`), that the writer ends (`C175_ends`), exact conditions (`C175_panics_iff`, `C175_errors_iff`), and for documents `C175_nt`, `C175_nt_iff`, `C175_nt_endless`, `C175_json`.
* `C175_panic` (TurtlePanic.lean): C175: a panic of the writer is that of something it looks up, or an error among predicates that are sorted, at any depth.
* `C175_error` (TurtlePanic.lean): C175: an error of the writer is that of something it looks up, at any depth.
* `C175_ends` (TurtlePanic.lean): C175: given room, the writer of a graph without endless chains does end.
* `C175_panics_iff` (TurtlePanic.lean): C175, exactly, when nothing that is looked up is an error: the writer, given room, panics if and only if something that it looks up does.
* `C175_errors_iff` (TurtlePanic.lean): C175, exactly, when nothing that is looked up panics: the writer, given room, ends with an error if and only if something that it looks up does.
* `C175_fails` (TurtlePanic.lean): C175 does not hold: an IRI without a hierarchical path is a panic.
* `C175_fails_sorted` (TurtlePanic.lean): C175 does not hold: an error among the predicates that are sorted is a panic, although nothing that is looked up panics.
* `C175_single` (TurtlePanic.lean): C175: the same predicate alone is an error.
* `C175_nt` (TurtlePanic.lean): C175: a conversion of N-Triples to Turtle never ends with an error; it panics only for an IRI whose division does; and if no blank node starts an endless chain it ends, given room.
* `C175_nt_iff` (TurtlePanic.lean): C175, exactly, for N-Triples: if no blank node starts an endless chain the conversion to Turtle, given room, panics if and only if the division of some IRI does.
* `C175_nt_endless` (TurtlePanic.lean): C175, exactly, for N-Triples: if all IRIs can be divided the conversion to Turtle exhausts any room if and only if some blank node starts an endless chain.
* `C175_json` (TurtlePanic.lean): C175: a conversion of RDF/JSON to Turtle ends with an error only for a literal of type `xsd:anyURI` whose text, as it is read, is no IRI; it panics only for an IRI, or the text of such a literal, whose division does; and if no blank node starts an endless chain it ends, given room.

### C176 The layout of Turtle output

* Approach: describe laid out texts by an inductive relation that mentions neither flags nor the state of the indentation, and show by induction on the depth that whatever the writer writes is laid out.
* Status: proved. The width must not be zero for anything to be written at all (`C176_zero`), so no hypothesis on it is needed. The orders of the predicates of a subject and of the objects of a predicate are left open here (see C69).
* `C176_block` (TurtleLayout.lean): C176: the block of every subject is laid out as described, whatever the options, nested blank nodes included.
* `C176_object` (TurtleLayout.lean): C176: every object is laid out as described, at every indentation that the writer gets to.
* `C176_triples` (TurtleLayout.lean): C176: the statements of a graph are written as the blocks of its subjects, one after the other, first those of the subjects that are no blank nodes in their order and then those of the blank nodes.
* `C176_zero` (TurtleLayout.lean): C176: without indentation nothing is written.
* `C176_text` (TurtleLayout.lean): C176: the whole text.
* `C176_base_sparql` (TurtleLayout.lean): C176: the base in the style of SPARQL.
* `C176_base` (TurtleLayout.lean): C176: the base in the style of Turtle.
* `C176_prefix_sparql` (TurtleLayout.lean): C176: a prefix in the style of SPARQL.
* `C176_prefix` (TurtleLayout.lean): C176: a prefix in the style of Turtle.
* `C176_prefixes` (TurtleLayout.lean): C176: the prefixes, one on each line, sorted by their names, and an empty line.
* `C176_end` (TurtleLayout.lean): C176: every block ends with a full stop and an empty line.

### C177 Nodes equal what they are made from

* Approach: case analysis on nodes.
* Status: proved. Equality of statements is that of their values; `Arc` is transparent. From a `Name` a blank node is made, also for subjects and objects, though a name is no label in RDF.
* `C177_subject` (Variants.lean): C177: a subject equals a value of another type just when it is made from it.
* `C177_object` (Variants.lean): C177: an object equals a value of another type just when it is made from it.
* `C177_name` (Variants.lean): C177: a node made from a name is the blank node with that label.
* `C177_graphName` (Variants.lean): C177: a graph name is of just one kind, has the value of that kind, and is determined by it.
* `C177_blankNamed` (Variants.lean): C177: a graph named by a text has the text as its label, if it is accepted, with the reserved prefix or without.
* `C177_blank_distinct` (Variants.lean): C177: graphs named by blank nodes that are made one after the other have different names.
* `C177_rdfType` (Variants.lean): C177: the type of a subject is said with the predicate of RDF.
* `C177_features` (Variants.lean): C177: a statement announces what its object does, and all that its subject does; collections are announced for objects alone.
* `C177_features_graph` (Variants.lean): C177: a graph announces neither that it may be named, even if it is, nor the collections that each statement in it announces.
* `C177_announced` (Variants.lean): C177: the features, by their text, that each of these announces; a data set announces none.
* `C177_indexed` (Variants.lean): C177: the graph with indices announces duplicates and has them, unlike the other (C30).
* `C177_ofSubject` (Variants.lean): C177: a subject names a graph just when it is no statement; then it is the name with the same label or IRI, and the conversion panics otherwise.

### C178 The iterator over statements knows its length

* Approach: induction on the number of calls.
* Status: partial. `size_hint` is not defined, so it is `(0, None)`, against the contract of `ExactSizeIterator` (the hint must be exact). The consequence is at most a panic in the default `len`, which is overridden, and less good allocation in `collect`.
* `C178_len` (Variants.lean): C178: the length is right at any time.
* `C178_all` (Variants.lean): C178: all statements come, each as often as it is there, and then nothing any more.
* `C178_fails` (Variants.lean): C178 fails for the size hint: an iterator that has a length says nothing of it, as soon as a statement is to come.
* `C178_fails_always` (Variants.lean): C178, exactly: the size hint is never the length, at no time.
* `C178_bounds` (Variants.lean): C178: what the size hint says is nevertheless true: the number is not less than the one and not more than the other.

### C179 Different values are hashed differently

* Approach: show that what is written can be read from left to right: words of eight bytes and strings in UTF-8 that end with 0xFF, by mutual induction on nodes.
* Status: proved. Collections with 2^64 or more members are left out (`Spec.SmallObject`): their lengths would be cut off, and no machine has them. The derived implementations are taken to be those of the compiler and the standard library; a language tag writes its text (in the crate it also writes positions in it, which the text determines). A word is eight bytes, the lowest first, and they give the word back (C179_word); this was added because the solver did not end on a wrong program instead of failing.
* `C179_word` (Hash.lean): C179: a word is written as eight bytes, the lowest first: they give the word back.
* `C179_literal` (Hash.lean): C179: what a literal writes says all of it, and where it ends: different literals write different bytes, and none writes the beginning of what another one does.
* `C179_triple` (Hash.lean): C179: the same for statements, of any depth.
* `C179_subject` (Hash.lean): C179: the same for subjects.
* `C179_object` (Hash.lean): C179: the same for objects.
* `C179_key` (Hash.lean): C179: the same for the names of graphs, which are the keys of a data set: also that there is no name.
* `C179_bytes` (Hash.lean): C179: only bytes are written.

### C180 What the RDF/XML reader makes of any document

* Approach: a grammar as mutual inductive predicates; each derivation is followed by the run, and each run gives a derivation by induction on the number of events
* Status: proved. The grammar says what the code does; C77 says where this differs from the W3C grammar.
* `C180_iff` (XmlReader.lean): C180: the reader of RDF/XML takes just the documents of the grammar, and reads just the statements that the grammar gives, in this order.
* `C180_graph` (XmlReader.lean): C180: nothing but statements is read: the graph has no name, and the mappings of a new graph.
* `C180_one` (XmlReader.lean): C180: a document has at most one reading in the grammar.
* `C180_error` (XmlReader.lean): C180: a well nested document that is neither in the grammar nor has a fault of those that cause a panic is an error, and no other is.

### C181 The grammar ends on every text

* Approach: an order on the rules and the length of the text decrease together; runs are monotone in the steps allowed
* Status: proved. The number of steps of the model stands for the depth of the calls; pest has no such bound.
* `C181_ends` (Grammar.lean): **C181.** Every rule of the grammar comes to an end on every text: there is a depth from which on the run has an answer, and the answer does not depend on the depth.
* `C181_left` (Grammar.lean): What is left after a rule is the end of the text, and the first pair of a rule that makes one has the text before it.
* `C181_whole` (Grammar.lean): The rules of whole documents read all of the text or refuse it.

### C182 The readers are the grammar

* Approach: each rule of the two grammars is compared with the reader of its text by induction, with the pairs it makes
* Status: proved. Until here the readers were written by hand after the grammar; the theorem shows that this was faithful. C182_end says what the unreachable branch of the loop needs, C182_bytes exactly where a text can be cut.
* `C182_readers` (Grammar.lean): **C182.** The readers of N-Triples and N-Quads of the model are the grammar of `common.pest` with the walk of `ntriples.rs` and `nquads.rs` over its pairs: on every text, for every way to make IRIs, blank nodes and tags, and from some depth on, the two give the same.
* `C182_same` (Grammar.lean): At no depth do the two give different answers.
* `C182_refuses` (Grammar.lean): The rule of a document refuses exactly the texts that the function of the model refuses.
* `C182_end` (Grammar.lean): C182: pairs of triples without the pair for the end of the input would run into `unreachable!()`; with it they do not, whatever follows. The grammar always gives that pair (`C182_readers`).
* `C182_bytes` (Grammar.lean): C182: a text is cut after so many bytes exactly when so many bytes are a beginning of it that ends between two characters; else the cut panics.

### C183 N-Triples is part of Turtle, TriG and N3

* Approach: the accepted texts of N-Triples are described by a specification, and each piece is run through the other grammars
* Status: proved. The readers of Turtle, TriG and N3 are todo!() in the code; the grammar is all there is of them.
* `C183_included` (GrammarTurtle.lean): **C183.** Every document of N-Triples is a document of Turtle, of TriG and of N3.
* `C183_accepted` (GrammarTurtle.lean): Whatever the reader of N-Triples reads as a graph is a document of all four languages.

### C184 Turtle is part of TriG and N3

* Approach: texts that are refused, for all prefixes and all documents with a quoted triple at the start
* Status: partial. N3 wants a second dot after @prefix; TriG refuses documents that begin with <<. Over all texts Turtle reads, C184_trig_iff and C184_n3_iff say from the tree of the parse which of them TriG and N3 read: TriG all without a statement about a quoted statement, N3 all without `@prefix`, `@base` and quoted statements at an end. C184_iff says it for both and that what N3 reads of Turtle TriG reads too. C184_fails_prefix is a text both read, to different effect: `PREFIXa: <a:b> [ <a:p> <a:o> ] .` is a directive and a statement for Turtle, one statement about `PREFIXa:` for N3.
* `C184_trig_iff` (GrammarParts.lean): C184 for TriG: a document of Turtle is one of TriG exactly when no statement of it is about a quoted statement. Otherwise TriG refuses it.
* `C184_n3_iff` (GrammarParts.lean): C184 for N3: a document of Turtle is one of N3 exactly when it has no `@prefix`, no `@base` and no quoted statement for the subject or an object of a statement. Otherwise N3 refuses it.
* `C184_partial` (GrammarParts.lean): Documents of Turtle without `@prefix` and `@base` in which no statement has a quoted statement for an end belong to all three.
* `C184_iff` (GrammarParts.lean): C184 for both: the documents of Turtle that belong to all three are the ones just named.
* `C184_fails_prefix` (GrammarParts.lean): N3 and Turtle agree about the text but not about what it says: where `PREFIX` and the prefix stand without a space the one reads a directive and a statement, the other one statement about `PREFIXa:`.
* `C184_prefix` (GrammarTurtle.lean): Wherever a prefix is declared with `@prefix` and one dot, N3 refuses the document: the rule of the statement wants another dot.
* `C184_quoted` (GrammarTurtle.lean): TriG refuses every document that begins with a quoted triple.
* `C184_fails` (GrammarTurtle.lean): N3 refuses a document of Turtle that declares a prefix.
* `C184_fails_quoted` (GrammarTurtle.lean): TriG refuses a document of Turtle that begins with a quoted triple.
* `C184_flat_partial` (GrammarTurtle.lean): The documents of N-Triples among those of Turtle are documents of TriG and N3.

### C185 The arrow of N3

* Approach: the verb stops after the equals sign, so the document is refused whatever follows
* Status: partial. => is hidden behind =. C185_iff says that of the three signs only the arrow to the right is refused, with IRIs and formulas of any depth on both sides.
* `C185_verb` (GrammarTurtle.lean): The rule of the verb reads the equals sign of the arrow and stops.
* `C185_refused` (GrammarTurtle.lean): So nothing begins with an arrow, and no document whose first subject is followed by an arrow is read. The characters that are left out are those of a directive.
* `C185_fails` (GrammarTurtle.lean): The statement fails for two empty formulas.
* `C185_others_partial` (GrammarTurtle.lean): C185, what holds: statements whose two sides are IRIs or formulas in any depth are read when an IRI, an equals sign or the arrow to the left joins the two sides, as a document and as a formula.
* `C185_iff` (GrammarTurtle.lean): C185, exactly: of the three signs between two sides the arrow to the right alone makes the document unreadable.

### C186 Prefixed names are one word

* Approach: the run of the rule over a prefix, a gap and a local name
* Status: partial. PNAME_NS and PNAME_LN are not atomic: <i> a :x . is refused, as a :x is read as one name. C186_type_iff says for which types a statement with `a` is read.
* `C186_spaces` (GrammarTurtle.lean): A prefix, white space and comments, a colon and a local name are read as one IRI, so that a keyword before a name without a prefix is a prefix: `GRAPH :g` is the name of a graph and `a :C` a predicate.
* `C186_type` (GrammarTurtle.lean): A statement that says the type of an IRI with a name without a prefix is refused by Turtle.
* `C186_fails` (GrammarTurtle.lean): `a :b` is one prefixed name.
* `C186_type_iff` (GrammarTurtle.lean): C186, exactly for types: a statement that says the type of an IRI is read by Turtle when the type is written in brackets or with a prefix that is not empty, and refused otherwise.

### C187 Long strings have line ends

* Approach: both directions by induction on the text between the quotes
* Status: partial. Just the ones without line ends are read.
* `C187_iff` (GrammarTurtle.lean): Exactly the ones without line ends are read; the others are refused.
* `C187_fails` (GrammarTurtle.lean): A long string of one line end is refused.

### C188 What the Turtle writer writes is Turtle

* Approach: Describe the written text by tokens and gaps, show by induction on the nesting that the grammar reads each, and exhibit the texts that it refuses.
* Status: partial. False as the code stands: an IRI is printed in two pairs of brackets and no statement begins so (C188_bracketed, for every such graph). With one pair it still fails for commas between the members of a collection, for `a` before a name with the empty prefix and for numbers such as NaN; otherwise every document is read (C188_reads_partial). Numbers of all three kinds may stand as objects.
* `C188_reads_partial` (GrammarWrite.lean): C188, what holds: when base, prefixes and terms are written as texts of the grammar and no collection has two members, the document is read, whatever the layout, the nesting of blank nodes and the order of the statements.
* `C188_bracketed` (GrammarWrite.lean): The way the code prints IRIs makes the grammar refuse every document of a graph with an IRI for a subject, when there are no base and no prefixes.
* `C188_fails` (GrammarWrite.lean): C188 fails for the way the code prints IRIs.
* `C188_members` (GrammarWrite.lean): A collection with a comma after its first member is no object of the grammar; the writer puts one between any two members.
* `C188_fails_type` (GrammarWrite.lean): C188 fails also with IRIs in one pair of brackets: `a` and a name with the empty prefix are read as one name.
* `C188_fails_nan` (GrammarWrite.lean): C188 fails for numbers that are no numbers of the grammar.

### C189 Numbers are read as far as they go

* Approach: Each rule as a function to the rest of the text, sound and complete for the definition of its kind; then kinds are compared in length.
* Status: proved. The definitions of the numbers are those of the recommendation, in Spec/Tokens.lean.
* `C189_longest` (GrammarTokens.lean): **C189.** The rule for numbers reads the longest number of the recommendation at the start of the text, of whatever kind, and makes the pair of this kind.
* `C189_none` (GrammarTokens.lean): C189: where no number stands, none is read.
* `C189_kinds` (GrammarTokens.lean): C189: a number is of one kind only.

### C190 Prefixes and local names are read whole

* Approach: The repetition over the parts of a name goes on as long as every step succeeds; say exactly which steps do not.
* Status: partial. False for two dots in a row, and for an escaped quote: the grammar has three quotes there. All other names are read (C190_prefix_iff, C190_local_iff).
* `C190_prefix_iff` (GrammarTokens.lean): C190 for prefixes, exactly: those without two dots in a row are read as one word.
* `C190_local_iff` (GrammarTokens.lean): C190 for local names, exactly: those without two dots in a row and without an escaped quote are read as one word.
* `C190_fails` (GrammarTokens.lean): C190 fails for a prefix with two dots.
* `C190_fails_quote` (GrammarTokens.lean): C190 fails for a local name with an escaped quote.

### C191 Pairs lie in the text they were read from

* Approach: Induction over the depth of the run: each way to combine parts keeps the pairs in order within what was read.
* Status: proved. Holds for any grammar, not only for that of the crate.
* `C191_spans` (GrammarSpans.lean): **C191.** For every grammar, rule and text: what is left is the end of the text, and the pairs lie one after the other in what was read, each with the pairs inside it in its own text, in any depth.
* `C191_parts` (GrammarSpans.lean): C191: the text of a pair, in any depth, is a part of the text.
* `C191_apart` (GrammarSpans.lean): C191: no character is in two pairs that stand side by side, in any depth.

### C192 The grammar of TriG reads what the TriG writer writes

* Approach: Each graph is read up to its last line or refused as a whole; induction over the graphs, then the end of the text decides.
* Status: partial. C192_iff says exactly which data sets are written as documents the grammar reads, and which as documents it refuses. The writer leaves out all statements (C45), so the graphs are empty.
* `C192_iff` (GrammarTrig.lean): C192, exactly: when the names are labels and IRIs of the grammar, the document is read if IRIs are printed without brackets or no graph has an IRI for its name, and refused otherwise.
* `C192_fails` (GrammarTrig.lean): C192 fails for the way the code prints IRIs.
* `C192_partial` (GrammarTrig.lean): C192 for IRIs printed without brackets.

### C193 Printed statements are Turtle

* Approach: By recursion over the statement, each printed term is read up to its end or refused where it begins; the list goes on to the first member that is refused.
* Status: partial. C193_iff is exact for the statements whose labels, IRIs and literals are texts of the grammar. C193_space_iff: without a blank behind `<<` the grammar takes the brackets for a part of an IRI, since it lets `<` stand in IRIs.
* `C193_iff` (GrammarStar.lean): C193, exactly: of the statements whose labels, IRIs and literals are those of the grammar, the ones are read that are printed without brackets inside brackets and quote, at any depth, no statement with a list for its object. All others are refused.
* `C193_fails` (GrammarStar.lean): C193 fails, and not only for the way the code prints IRIs: a statement about a statement whose object is the empty list is refused.
* `C193_partial` (GrammarStar.lean): C193 for statements that quote no statement with a list, printed without brackets inside brackets.
* `C193_lines_partial` (GrammarStar.lean): C193 for a graph of such statements, one on each line.
* `C193_space_iff` (GrammarStar.lean): The blank after the opening brackets of a quoted statement decides: with it the statement is read, without it the brackets are taken for a part of the IRI behind them and the statement is refused.

### C194 TriG reads the statements that Turtle reads

* Approach: The same facts about terms, put together by the rules of TriG; induction over the statements of a graph and over the graphs.
* Status: partial. C194_iff says exactly which statements TriG reads outside of braces; C194_graphs_partial is about those inside.
* `C194_iff` (GrammarStar.lean): C194, exactly: outside of the braces TriG reads the statements that Turtle reads other than those about a quoted statement.
* `C194_fails` (GrammarStar.lean): C194 fails: a statement about a quoted statement.
* `C194_partial` (GrammarStar.lean): C194 for statements not about a quoted statement.
* `C194_graphs_partial` (GrammarStar.lean): Inside of braces TriG reads all statements that Turtle reads, in any number of graphs, named or not, with or without the keyword, and with or without the dot behind the last statement.

### C195 N3 reads the statements that Turtle reads

* Approach: The facts about printed terms, put together by the rules of N3; induction over the statements of a graph.
* Status: partial. C195_iff and C195_lines_iff are exact for the statements whose labels, IRIs and literals are texts of the grammar. C195_converse: what N3 reads of them, Turtle and TriG read.
* `C195_iff` (GrammarStarN3.lean): C195, exactly: N3 reads the statements that Turtle reads other than those whose subject or object is a quoted statement. Inside of a list a quoted statement is read.
* `C195_fails` (GrammarStarN3.lean): C195 fails: a statement with a quoted statement for its object.
* `C195_partial` (GrammarStarN3.lean): C195 for statements of which neither end is a quoted statement.
* `C195_converse` (GrammarStarN3.lean): Whatever N3 reads of the printed statements, Turtle and TriG read as well.
* `C195_lines_iff` (GrammarStarN3.lean): C195 for a graph, one statement on each line: N3 reads it exactly when it reads each of the statements.

### C196 TriG without graphs is Turtle

* Approach: Inversion of the readings of TriG part by part: outside of braces each part is a statement of Turtle with the same rest; a part with braces is refused because no list of predicates begins with a brace, and because `GRAPH` is read as a word only where no statement begins.
* Status: proved. C196_iff is exact over all texts TriG reads; C196_both joins it to C184_trig_iff.
* `C196_iff` (GrammarBack.lean): **C196.** A document of TriG is one of Turtle exactly when nothing in it stands in braces; otherwise Turtle refuses it.
* `C196_both` (GrammarBack.lean): C196 and C184 together: two trees of one text, and neither has what the other language does not know.

### C197 GRAPH in small letters

* Approach: The word is a run of letters before `<`, so it is no name; of the four kinds of blocks only the one with the word is left, and that compares letters.
* Status: partial. C197_refused holds for every continuation; C197_iff says that only the capital letters are read where a graph with an IRI follows.
* `C197_refused` (GrammarBack.lean): In other letters the word is refused before an IRI, whatever follows.
* `C197_fails` (GrammarBack.lean): C197 fails: only capital letters will do.
* `C197_iff` (GrammarBack.lean): C197 exactly, for graphs with an IRI: the word has capital letters.

### C198 Turtle documents can be joined

* Approach: what a rule reads does not depend on the length of the text before; repeated rules split at every point they pass; lines of N-Triples and written statements are such points; two strings side by side for the failure
* Status: partial. Fails: `("""x")` is an empty string and `x`, until a line goes on with three quotes; a comment without line end takes the second document. Holds behind N-Triples that ends with a line, for any text and all three languages, with the tree (C198_iff, C198_tree), and behind what the Turtle writer writes within the grammar (C198_written).
* `C198_fails` (GrammarJoin.lean): C198 fails: an empty string with another one right behind it is the beginning of a long string, if one ends later in the line.
* `C198_fails_comment` (GrammarJoin.lean): Nor is the second document always refused or kept: behind a comment it is lost.
* `C198_iff` (GrammarJoin.lean): C198, what holds: behind a document of N-Triples that ends with a line, any text is a document of Turtle, TriG or N3 exactly when it is one by itself.
* `C198_tree` (GrammarJoin.lean): C198: the tree of such a document is that of the second, behind what has been read of the first.
* `C198_written` (GrammarJoin.lean): C198: nothing that is written behind a document of the Turtle writer changes how that is read, when the writer keeps to the grammar.

### C199 A byte order mark before a document

* Approach: the mark is neither white space nor the beginning of a term; to PN_CHARS_BASE it is a letter, so that the word it begins needs a colon; white space: a document begins where skipping ends
* Status: partial. Fails: N-Triples and N-Quads refuse every text with the mark (C199_lines); Turtle, TriG and N3 take it for a letter and refuse the document unless the word it begins is a prefix (C199_refused), and then the prefix is another one (C199_fails_prefix). White space and comments do no harm, trees included (C199_gap).
* `C199_lines` (GrammarMark.lean): C199 fails for every document of N-Triples and N-Quads: none may begin with the mark.
* `C199_fails` (GrammarMark.lean): C199 fails: the empty document is no document of N-Triples with the mark.
* `C199_refused` (GrammarMark.lean): The mark is a letter to the other grammars: with a word behind it that is not followed by a colon, they refuse the document.
* `C199_fails_others` (GrammarMark.lean): C199 fails for the three: an IRI, a directive or nothing may not stand behind the mark.
* `C199_fails_prefix` (GrammarMark.lean): And what is read with the mark may mean something else: it becomes part of the first prefix.
* `C199_gap` (GrammarMark.lean): What holds instead: white space and comments before a document change nothing, in any of the five languages.

### C200 How deep the parser goes

* Approach: a relation that counts calls within each other (loops do not add up); a check of the grammar that bounds it without the text; an induction over length, rank and size that bounds it by the length; and paths that every run must follow, for the lower bound
* Status: partial. Holds for N-Triples and N-Quads with 41 and 42 calls (C200_lines). Fails for Turtle, TriG and N3 (C200_fails): opening brackets need nine calls each (C200_nested), also in documents that are read (C200_read). The depth is at most linear in the length, for every rule (C200_linear). What is counted are calls of the model's expressions, not bytes of the stack, and pest's limit on calls, which is off unless set, is not modelled. In a graph of TriG the statements are nested as well, since triplesBlock calls itself for the rest: five calls for each statement (C200_graph). Brackets, braces, quotes and paths are the only causes: texts without them need a fixed depth in Turtle, TriG and N3 (C200_flat).
* `C200_counts` (GrammarDepth.lean): The depth counts what happens: whatever has a depth is what the parser does.
* `C200_lines` (GrammarDepth.lean): Documents of N-Triples and N-Quads of any length are read or refused with 41 and 42 calls within each other.
* `C200_flat` (GrammarDepth.lean): Only brackets make it deep: without lists, properties in brackets and quoted statements, documents of Turtle of any length need 77 calls; without braces as well, documents of TriG need 80; and without paths as well, documents of N3 need 85.
* `C200_linear` (GrammarDepth.lean): Every rule ends on every text, and the depth is at most linear in the length of the text.
* `C200_nested` (GrammarDepth.lean): A document of Turtle, TriG or N3 that begins with opening brackets needs nine calls for each bracket within another, whether it is read or refused.
* `C200_read` (GrammarDepth.lean): The depth is needed for documents that are read: lists within lists, closed again.
* `C200_graph` (GrammarDepth.lean): In a graph of TriG the statements are nested too: each but the last needs five calls within those of the one before it, although nothing is nested in the text.
* `C200_fails` (GrammarDepth.lean): No depth is enough for Turtle, TriG or N3.

### C201 How deep the reader of RDF/XML goes

* Approach: the calls are the stack of the machine that models the reader; weights of frames for the upper bound, a chain of elements without attributes for the lower
* Status: partial. The statement is false for every environment (C201_fails): each element within another one needs a call (C201_nested), whatever its name is, as long as the name makes an IRI. The number of open elements is always enough (C201_open), so the nesting of the document is (C201_nesting). Elements within an XML literal need none (C201_literal): the call that collects it counts them.
* `C201_open` (XmlDepth.lean): There are never more calls within each other than elements that are open.
* `C201_nesting` (XmlDepth.lean): The nesting of the whole document is enough.
* `C201_nested` (XmlDepth.lean): Elements within elements need a call each.
* `C201_fails` (XmlDepth.lean): No number is enough, whatever the reader is given.
* `C201_literal` (XmlDepth.lean): Elements within an XML literal need no call: the one that collects it stays on top until it returns.

### C202 How deep the Turtle writer goes

* Approach: the depth of the model of write_object; levels of objects defined from the graph alone, then exactness both ways, and paths without repetition for the bound
* Status: partial. The statement is false (C202_fails): a chain of n blank nodes needs n levels (C202_chain), and blank nodes are nested by default. A depth is enough exactly when no object has more levels (C202_iff), and with less the writer goes on deeper, it ends in no other way (C202_deeper). For graphs without endless chains the number of described blank nodes plus one, times the depth of collections plus one, is enough (C202_bound). With blank nodes that are not nested and no collections one level is enough (C202_flat).
* `C202_iff` (TurtleDepth.lean): Exactly: the depth is enough if and only if no object has more levels.
* `C202_deeper` (TurtleDepth.lean): If some object has more levels, the writer goes deeper; it does not end in another way before.
* `C202_bound` (TurtleDepth.lean): The number of blank nodes that are described bounds the depth, with the depth of collections.
* `C202_flat` (TurtleDepth.lean): Without nested blank nodes and collections one level is enough for every graph.
* `C202_chain` (TurtleDepth.lean): A chain of `n + 1` blank nodes needs `n + 1` levels, not fewer.
* `C202_fails` (TurtleDepth.lean): No depth is enough for every graph.

### C203 How deep the RDF/XML writer goes

* Approach: the depth of the model of write_subject; how far statements lead from a node, defined from the statements alone, then exactness both ways and paths without repetition for the bound
* Status: partial. The statement is false in the striped style, which nests (C203_fails): a chain of n statements that starts with an IRI needs n + 1 calls (C203_chain). A depth is enough exactly when statements about no IRI lead further (C203_iff), with less the writer goes on deeper (C203_deeper). One more than there are subjects is enough (C203_bound). In the flat style, the default, one call is enough for every graph (C203_flat).
* `C203_iff` (XmlWriteDepth.lean): Exactly: the depth is enough if and only if statements about no IRI lead further.
* `C203_deeper` (XmlWriteDepth.lean): With less depth the writer goes on deeper, it ends in no other way.
* `C203_bound` (XmlWriteDepth.lean): One more than there are subjects is enough.
* `C203_flat` (XmlWriteDepth.lean): In the flat style one call is enough: more depth changes nothing.
* `C203_chain` (XmlWriteDepth.lean): A chain of `n + 1` statements needs `n + 2` calls, not fewer.
* `C203_fails` (XmlWriteDepth.lean): No depth is enough for every graph.

### C204 N-Quads of graphs held under another name

* Approach: the proof of C41 with the names of the graphs in place of the keys; then renaming in place as a change of names
* Status: partial. The statement is false (C204_fails): the writer goes by the name that the graph has itself, so after a graph was renamed through graph_mut, or put into a HashMap under another key, it is read under its own name. What is read is given for all data sets (C204_reads), and the contents come back exactly when each key has the statements of the graphs with that name (C204_iff). A graph renamed in place is merged with the graph that had the name before, and nothing is left under the old one (C204_renamed).
* `C204_reads` (NqNames.lean): What reading gives, whatever the keys are: under each name the statements of all graphs that have it.
* `C204_iff` (NqNames.lean): Exactly: the contents come back if and only if each key has the statements of the graphs with that name.
* `C204_renamed` (NqNames.lean): A graph that is renamed in place is read under its new name, together with the one that had it before; nothing is left under the old.
* `C204_fails` (NqNames.lean): It does not hold: a graph that was renamed in place is not found under its key any more.

### C205 How long N-Triples of N-Triples gets

* Approach: each part of the grammar takes at least as many characters as what it matched; each node is written in at most c times that; the visit has every statement at most once
* Status: proved. The bound is linear, unlike that of Turtle and nested RDF/XML, which is not even polynomial (C173, C174). Ten is the length of an escape of six digits (C205_sharp). Each time the document is read and written again the text of its literals can grow, since what is read is escaped once more (C150). How much the parser of URLs lengthens a text is a parameter. For data sets read from N-Quads the same is shown, whatever the number of their graphs (C205_dataset).
* `C205_lines` (NtSize.lean): C205: the N-Triples of any graph of simple statements is no longer than a line for each of its statements.
* `C205_linear` (NtSize.lean): C205: the N-Triples of what was read from N-Triples is at most `c` times as long as the document, if IRIs and language tags do not grow by more and `c` is at least ten.
* `C205_cli` (NtSize.lean): C205: so is what the program writes as N-Triples.
* `C205_quads` (NtSize.lean): C205: the same for N-Quads.
* `C205_dataset` (NtSize.lean): C205, for data sets: the N-Quads of what was read from N-Quads is at most `c` times as long as the document.
* `C205_sharp` (NtSize.lean): C205: ten is reached: the last of all characters, if not printed as it is, becomes ten characters in a literal.

### C206 How long RDF/JSON of N-Triples gets

* Approach: the text of a value as a sum over its members; no member is counted twice by the maps; subjects and predicates are charged to one of their statements
* Status: proved. C206_rooms bounds the text of any graph by the room for each of its statements; C206_linear turns that into 10 c times the length of the document, where c >= 10 bounds how much IRIs and language tags grow when parsed. The factor is not the smallest one.
* `C206_rooms` (JsonSize.lean): C206: the RDF/JSON of any graph is no longer than the room for each of its statements.
* `C206_linear` (JsonSize.lean): C206: the RDF/JSON of what was read from N-Triples, pretty or not, is at most `10 c` times as long as the document and three characters, if IRIs and language tags do not grow more than `c` times and `c` is at least ten.
* `C206_cli` (JsonSize.lean): C206: so is what the program writes as RDF/JSON.

### C207 What draw makes of N-Triples is DOT

* Approach: texts that were read are safe in quotes and give different keys; then the drawing theorem of C50
* Status: partial. Fails for a subject such as urn:a"b (written urn:a\u0022b): the quote ends the label and the output is no DOT text. C207_partial holds whenever no IRI keeps a quote or a backslash, so in every strict environment (C207_strict). No condition on the literals is needed: they are escaped by their constructors and displayed in quotes, since the reader never makes a bare data type. C207_iff is exact: the drawing is right if and only if every label of an edge and every label of a resource can stand in quotes.
* `C207_iff` (DotRead.lean): C207, exactly: what `draw` writes for an N-Triples document draws the graph the document is read as if and only if every label can stand in quotes.
* `C207_partial` (DotRead.lean): C207, what holds: it does when the IRIs that were read are without quotes and backslashes.
* `C207_urls` (DotRead.lean): C207: it does for every document when the URL crate keeps no quote and no backslash.
* `C207_strict` (DotRead.lean): C207: it does in every strict environment.
* `C207_fails` (DotRead.lean): C207 fails: the quote of `urn:a"b` ends the label early, and what is written is no DOT text.

### C208 What draw makes of RDF/JSON

* Approach: an invariant of the reader: texts are safe in quotes; then C50_iff
* Status: partial. Fails for the literals "1" of type int and "1" of type long: the reader of RDF/JSON recognises the types, numbers are displayed without their type, and the display is the key of the node. From N-Triples this does not happen (C207), because that reader recognises no type. C208_iff is exact for every environment.
* `C208_dot` (DotJson.lean): C208: when no IRI keeps a quote or a backslash it is a DOT text, with an edge for each statement and at most one node for each subject and object.
* `C208_iff` (DotJson.lean): C208, exactly: it draws the graph if and only if no two nodes are displayed alike and every label can stand in quotes.
* `C208_partial` (DotJson.lean): C208, what holds: it draws the graph when every literal is displayed in quotes.
* `C208_fails` (DotJson.lean): C208 fails: the numbers `1` of two types share a node.

### C209 What a diagram says about the graph

* Approach: From the items of a text to the graph: edges and nodes are told apart, identifiers are injective, so equal items give a one-to-one map between the nodes of the two graphs that keeps labels; labels of edges are injective for the mappings of a new graph because an IRI that looks like a short name cannot be split, and then nothing is drawn.
* Status: partial. C209_statement is refuted by C209_fails (a text and the same text in English have one diagram). C209_partial has the exact map between the graphs with equal predicates, C209_plain the full conclusion for literals without type and language, C209_sources any two source formats, C209_items any two graphs that the same items draw. C209_iff and C209_documents are exact: the text drawn for one document is a diagram of another if and only if the two differ only in names of blank nodes and types and languages of literals. C209_formats is for any two documents of N-Triples or RDF/XML.
* `C209_items` (DotSame.lean): C209: two graphs that the same items draw are the same but for names of blank nodes, types and languages.
* `C209_iff` (DotSame.lean): C209, exactly: what draws one graph draws another if and only if they differ only in what is not drawn.
* `C209_documents` (DotSame.lean): C209, exactly: the diagram of a document is one of another document that can be drawn if and only if they are the same but for the names of blank nodes and the types and languages of literals.
* `C209_partial` (DotSame.lean): C209, what holds: they are the same but for the names of blank nodes and the types and languages of literals.
* `C209_plain` (DotSame.lean): C209, plain texts: they are the same but for the names of blank nodes when no literal has a type or a language.
* `C209_sources` (DotSame.lean): C209, any source: two documents, of whatever formats, whose diagrams are right and the same.
* `C209_fails` (DotSame.lean): C209 fails: the diagram does not say that a text is in English.
* `C209_formats` (DotXml.lean): C209, two formats: documents of N-Triples or RDF/XML with the same diagram are the same but for the names of blank nodes and the types and languages of literals.

### C210 What draw makes of RDF/XML

* Approach: An invariant over the steps of the reader's stack: subjects are blank nodes or resources, literals are escaped and have no type but XMLLiteral, every IRI comes from the URL crate. Then displays are injective and C50_command_iff applies.
* Status: partial. C210_statement is refuted by C210_fails (an opaque IRI with a quote). C210_iff is exact for every environment; C210_urls and C210_strict have the full conclusion for environments whose URLs have no quotes and backslashes. The tokenizer of the XML crate is a parameter.
* `C210_iff` (DotXml.lean): C210, exactly: it draws the graph if and only if every label can stand in quotes.
* `C210_partial` (DotXml.lean): C210, what holds: it does when the IRIs that were read are without quotes and backslashes.
* `C210_urls` (DotXml.lean): C210, URLs: it does when the URL crate leaves no quotes and backslashes in IRIs.
* `C210_strict` (DotXml.lean): C210, strict environments: the diagram always is right.
* `C210_fails` (DotXml.lean): C210 fails: the quote of `urn:a"b` ends the label early, and what is written is no DOT text.

