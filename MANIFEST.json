{"claims": [
 {"property": "C01", "status": "proved", "theorems": ["Rdftk.C01_print_parse", "Rdftk.C01_parse_print", "Rdftk.C01_parts", "Rdftk.C01_disjoint"], "note": ""},
 {"property": "C02", "status": "proved", "theorems": ["Rdftk.C02_accepts_iff", "Rdftk.C02_unique", "Rdftk.C02_errors"], "note": ""},
 {"property": "C03", "status": "partial", "theorems": ["Rdftk.C03_namespace_iff", "Rdftk.C03_name", "Rdftk.C03_namespace_partial", "Rdftk.C03_namespace_fails"], "note": "Names: equality with PN_LOCAL. Namespaces: fails, dots may stand before the colon (C03_namespace_fails); C03_namespace_iff says exactly what is accepted."},
 {"property": "C04", "status": "proved", "theorems": ["Rdftk.C04_colon_optional", "Rdftk.C04_name_string", "Rdftk.C04_name_string_total", "Rdftk.C04_is_default", "Rdftk.C04_qualify"], "note": ""},
 {"property": "C05", "status": "partial", "theorems": ["Rdftk.C05_split_makeName_partial", "Rdftk.C05_fails", "Rdftk.C05_iff", "Rdftk.C05_parts", "Rdftk.C05_name_iff"], "note": "Fails for IRIs with an empty fragment (C05_fails). C05_iff says exactly when it holds. C05_name_iff says exactly which IRIs have which name; C05_parts that namespace and name go together and what they make."},
 {"property": "C06", "status": "partial", "theorems": ["Rdftk.C06_makeName_split_partial", "Rdftk.C06_fails_nonAscii", "Rdftk.C06_fails_fragment", "Rdftk.C06_fails_opaque", "Rdftk.C06_iff"], "note": "Fails for non-ASCII names, IRIs with a fragment and opaque IRIs (three witnesses). C06_iff says exactly when it holds."},
 {"property": "C07", "status": "partial", "theorems": ["Rdftk.C07_no_split_iff", "Rdftk.C07_namespace_accepts_names", "Rdftk.C07_split_namespace", "Rdftk.C07_no_split_partial", "Rdftk.C07_no_split_fails", "Rdftk.C07_looks"], "note": "The no-split part fails for http://h/#a; C07_no_split_iff says exactly which IRIs do not split. The rest is proved."},
 {"property": "C08", "status": "partial", "theorems": ["Rdftk.C08_panic_iff", "Rdftk.C08_no_panic_partial", "Rdftk.C08_fails"], "note": "split panics for opaque IRIs; exact characterisation C08_panic_iff."},
 {"property": "C09", "status": "proved", "theorems": ["Rdftk.C09_parse_display", "Rdftk.C09_brackets"], "note": ""},
 {"property": "C10", "status": "proved", "theorems": ["Rdftk.C10_one_to_one"], "note": ""},
 {"property": "C11", "status": "proved", "theorems": ["Rdftk.C11_insert", "Rdftk.C11_insert_prefix", "Rdftk.C11_remove", "Rdftk.C11_other"], "note": ""},
 {"property": "C12", "status": "partial", "theorems": ["Rdftk.C12_iff", "Rdftk.C12_compress_expand_partial", "Rdftk.C12_fails"], "note": "Fails for IRIs ending in '#' (C12_fails). C12_iff says exactly when it holds."},
 {"property": "C13", "status": "partial", "theorems": ["Rdftk.C13_iff", "Rdftk.C13_expand_compress_partial", "Rdftk.C13_fails"], "note": "Fails for non-ASCII names (C13_fails). C13_iff says exactly when it holds."},
 {"property": "C14", "status": "proved", "theorems": ["Rdftk.C14_compress_iriref", "Rdftk.C14_panic"], "note": ""},
 {"property": "C15", "status": "proved", "theorems": ["Rdftk.C15_literal", "Rdftk.C15_dataType", "Rdftk.C15_subject", "Rdftk.C15_object", "Rdftk.C15_collection", "Rdftk.C15_statement", "Rdftk.C15_order_is"], "note": ""},
 {"property": "C16", "status": "proved", "theorems": ["Rdftk.C16_subject_round_trip", "Rdftk.C16_object_round_trip", "Rdftk.C16_subject_kinds", "Rdftk.C16_object_kinds", "Rdftk.C16_components"], "note": ""},
 {"property": "C17", "status": "proved", "theorems": ["Rdftk.C17_reversible", "Rdftk.C17_injective", "Rdftk.C17_safe", "Rdftk.C17_unchanged"], "note": ""},
 {"property": "C18", "status": "partial", "theorems": ["Rdftk.C18_keeps_text_partial", "Rdftk.C18_recoverable", "Rdftk.C18_fails"], "note": "False for strings with characters to escape; exact condition in C18_keeps_text_partial, recoverable always."},
 {"property": "C19", "status": "proved", "theorems": ["Rdftk.C19_int", "Rdftk.C19_bool", "Rdftk.C19_bool_text", "Rdftk.C19_other_types", "Rdftk.C19_distinct"], "note": ""},
 {"property": "C20", "status": "partial", "theorems": ["Rdftk.C20_decode_iff", "Rdftk.C20_error_iff", "Rdftk.C20_others", "Rdftk.C20_hex_partial", "Rdftk.C20_fails", "Rdftk.C20_encode", "Rdftk.C20_base64_fails"], "note": "False unless there is exactly one byte; C20_hex_partial is exact. Base 64 literals are tagged hex binary. C20_decode_iff and C20_error_iff say exactly which texts are decoded, to which bytes, and which piece an error names; C20_others the same for other types."},
 {"property": "C21", "status": "partial", "theorems": ["Rdftk.C21_round_trip_partial", "Rdftk.C21_fails", "Rdftk.C21_iri_kept", "Rdftk.C21_iris"], "note": "False for seven built-in types; C21_round_trip_partial is exact."},
 {"property": "C22", "status": "partial", "theorems": ["Rdftk.C22_fails_always", "Rdftk.C22_equals", "Rdftk.C22_fails", "Rdftk.C22_injective_partial"], "note": "False for every duration; injectivity of the text is proved."},
 {"property": "C23", "status": "proved", "theorems": ["Rdftk.C23_injective", "Rdftk.C23_constructors", "Rdftk.C23_short_form"], "note": ""},
 {"property": "C24", "status": "proved", "theorems": ["Rdftk.C24_constructors", "Rdftk.C24_into", "Rdftk.C24_bag", "Rdftk.C24_reports", "Rdftk.C24_order", "Rdftk.C24_name"], "note": "The constructors and the conversions between sets and vectors of statements are described by `C24_constructors` and `C24_into`."},
 {"property": "C25", "status": "proved", "theorems": ["Rdftk.C25_unique_stays", "Rdftk.C25_insert_again"], "note": ""},
 {"property": "C26", "status": "proved", "theorems": ["Rdftk.C26_dedup"], "note": ""},
 {"property": "C27", "status": "partial", "theorems": ["Rdftk.C27_inverted", "Rdftk.C27_fails", "Rdftk.C27_fails_always", "Rdftk.C27_partition_partial"], "note": "The code is inverted: C27_inverted is exact, C27_fails_always shows it is wrong for every non-empty graph."},
 {"property": "C28", "status": "partial", "theorems": ["Rdftk.C28_fails", "Rdftk.C28_matches_partial", "Rdftk.C28_iff"], "note": "False when a component is not given (result is empty); exact in C28_matches_partial. C28_iff gives the exact condition."},
 {"property": "C29", "status": "proved", "theorems": ["Rdftk.C29_projections"], "note": ""},
 {"property": "C30", "status": "partial", "theorems": ["Rdftk.C30_fails_always", "Rdftk.C30_fails", "Rdftk.C30_features_partial"], "note": "Inverted for every graph (C30_fails_always)."},
 {"property": "C31", "status": "proved", "theorems": ["Rdftk.C31_map", "Rdftk.C31_queries", "Rdftk.C31_fromIter", "Rdftk.C31_rename_in_place"], "note": ""},
 {"property": "C32", "status": "proved", "theorems": ["Rdftk.C32_terms", "Rdftk.C32_is_list", "Rdftk.C32_one_reading", "Rdftk.C32_size", "Rdftk.C32_cells", "Rdftk.C32_subjects"], "note": ""},
 {"property": "C33", "status": "partial", "theorems": ["Rdftk.C33_fails", "Rdftk.C33_read_back_partial", "Rdftk.C33_nodes", "Rdftk.C33_size", "Rdftk.C33_iff"], "note": "False when a label in the statement is also generated (C33_fails); with fresh labels C33_read_back_partial reads back statements of any depth. C33_iff: a reified statement is read back exactly when no blank node outside its collections has one of the labels the reification will generate."},
 {"property": "C34", "status": "partial", "theorems": ["Rdftk.C34_exact_partial", "Rdftk.C34_fails", "Rdftk.C34_fails_collection", "Rdftk.C34_name", "Rdftk.C34_not_kept", "Rdftk.C34_simple_kept", "Rdftk.C34_unchanged", "Rdftk.C34_nested_subject", "Rdftk.C34_nested_object", "Rdftk.C34_collection"], "note": "False for statements nested at both ends or in collections; C34_exact_partial is an exact condition, the rest (order, name, read back) is proved."},
 {"property": "C35", "status": "partial", "theorems": ["Rdftk.C35_fails", "Rdftk.C35_fails_nested", "Rdftk.C35_consistent_partial", "Rdftk.C35_no_blanks", "Rdftk.C35_error", "Rdftk.C35_not_kept", "Rdftk.C35_iff"], "note": "Name and prefixes are dropped and nested blank nodes kept; consistency for the others in C35_consistent_partial, exact conditions in C35_no_blanks and C35_error. C35_iff says exactly which graphs are skolemized as stated."},
 {"property": "C36", "status": "partial", "theorems": ["Rdftk.C36_fails", "Rdftk.C36_fails_members", "Rdftk.C36_insert", "Rdftk.C36_entries", "Rdftk.C36_predicate", "Rdftk.C36_literals", "Rdftk.C36_containers_partial", "Rdftk.C36_nested_partial", "Rdftk.C36_nothing_else", "Rdftk.C36_kinds", "Rdftk.C36_isResource", "Rdftk.C36_instance_of", "Rdftk.C36_individual", "Rdftk.C36_iff"], "note": "False: a nested resource is linked to its parent itself and members are numbered from 0 (two witnesses); everything else at any depth in C36_literals, C36_containers_partial, C36_nested_partial. C36_iff says exactly which resources become what they were told. `C36_isResource` says which resources are named ones."},
 {"property": "C37", "status": "partial", "theorems": ["Rdftk.C37_fails", "Rdftk.C37_prefix_kept", "Rdftk.C37_iff", "Rdftk.C37_labels_partial"], "note": "False: the prefix stays in the label and generated labels can be named by the user; exact behaviour in C37_labels_partial and C37_prefix_kept. C37_iff: the statement holds only if no label is accepted at all."},
 {"property": "C38", "status": "partial", "theorems": ["Rdftk.C38_reads", "Rdftk.C38_iff", "Rdftk.C38_roundtrip_partial", "Rdftk.C38_fails_escape", "Rdftk.C38_fails_type", "Rdftk.C38_fails_bare", "Rdftk.C38_fails_bracketed", "Rdftk.C38_fails"], "note": "The full statement fails for the way IRIs now print (C38_fails, C38_fails_bracketed: no non-empty document is read) and, with bare IRIs, for texts that need escapes, known types and unquoted numbers. Proved: exactly what is read for every readable graph (C38_reads) and that it comes back if and only if no literal is changed (C38_iff)."},
 {"property": "C39", "status": "partial", "theorems": ["Rdftk.C39_iff", "Rdftk.C39_quads_iff", "Rdftk.C39_fails", "Rdftk.C39_good_escapes_partial"], "note": "Fails for a numeric escape that names no character (C39_fails). Proved exactly, for N-Triples and N-Quads: reading panics if and only if the text is a document and the first term that cannot be read, in the first statement that cannot, is an IRI with such an escape (C39_iff, C39_quads_iff); never for a text whose escapes all name characters (C39_good_escapes_partial)."},
 {"property": "C40", "status": "proved", "theorems": ["Rdftk.C40_lines", "Rdftk.C40_simple", "Rdftk.C40_quads"], "note": ""},
 {"property": "C41", "status": "partial", "theorems": ["Rdftk.C41_iff", "Rdftk.C41_reads_partial", "Rdftk.C41_roundtrip_partial", "Rdftk.C41_fails_default", "Rdftk.C41_fails_bracketed", "Rdftk.C41_fails"], "note": "Fails for any statement in the default graph (C41_fails_default) and when IRIs print with brackets (C41_fails_bracketed). With bare IRIs: C41_reads_partial says what is read, C41_iff exactly when the data set comes back."},
 {"property": "C42", "status": "proved", "theorems": ["Rdftk.C42_layout", "Rdftk.C42_layout_quads", "Rdftk.C42_matched"], "note": ""},
 {"property": "C43", "status": "partial", "theorems": ["Rdftk.C43_reads", "Rdftk.C43_iff", "Rdftk.C43_roundtrip_partial", "Rdftk.C43_fails", "Rdftk.C43_fails_blank", "Rdftk.C43_fails_bracketed"], "note": "Fails in either style: the label of a blank node object loses two bytes (C43_fails), is refused or panics when that is impossible (C43_fails_blank), and with IRIs in brackets no graph with an IRI as subject is read (C43_fails_bracketed). Proved: exactly what is read for every readable graph (C43_reads) and that it comes back if and only if no object is blank and no literal is changed (C43_iff)."},
 {"property": "C44", "status": "partial", "theorems": ["Rdftk.C44_iff", "Rdftk.C44_decode", "Rdftk.C44_panic", "Rdftk.C44_fails", "Rdftk.C44_read_partial"], "note": "Fails when the decoded text stands in angle brackets (C44_fails), and only then (C44_iff). Decoding itself is proved exact."},
 {"property": "C45", "status": "partial", "theorems": ["Rdftk.C45_blind", "Rdftk.C45_fails", "Rdftk.C45_names_partial"], "note": "Fails for every option: the statements are never written (C45_blind, C45_fails). Proved: the text says exactly the names of the graphs, in the order of the visit."},
 {"property": "C46", "status": "partial", "theorems": ["Rdftk.C46_fails", "Rdftk.C46_brackets", "Rdftk.C46_fails_base", "Rdftk.C46_fails_prefix", "Rdftk.C46_absolute_partial", "Rdftk.C46_relative_partial", "Rdftk.C46_absolute_iff", "Rdftk.C46_fails_dot"], "note": "Fails for the way IRIs now print (C46_fails, C46_brackets: never right), for a base that the reference does not resolve against (C46_fails_base) and for a prefix name (C46_fails_prefix). Proved with bare IRIs for every absolute IRI (C46_absolute_partial) and for references relative to a base without dot segments (C46_relative_partial). C46_absolute_iff says exactly which IRIs without base are printed as what stands for them, C46_fails_dot that a prefix ending with a dot is accepted and printed though the grammar has none."},
 {"property": "C47", "status": "proved", "theorems": ["Rdftk.C47_grouping", "Rdftk.C47_written"], "note": ""},
 {"property": "C48", "status": "partial", "theorems": ["Rdftk.C48_verb_partial", "Rdftk.C48_mistyped", "Rdftk.C48_iff", "Rdftk.C48_fails", "Rdftk.C48_separated_partial", "Rdftk.C48_fails_separator"], "note": "Fails for rdfs:subClassOf and two more, which are written as rdf:type (C48_fails), and for the separator (C48_fails_separator). Proved for all other predicates. C48_iff: the verb is right exactly if the predicate is not among the mistyped ones."},
 {"property": "C49", "status": "partial", "theorems": ["Rdftk.C49_balanced_partial", "Rdftk.C49_fails", "Rdftk.C49_new", "Rdftk.C49_fails_offset", "Rdftk.C49_fails_zero", "Rdftk.C49_exact", "Rdftk.C49_iff", "Rdftk.C49_reset", "Rdftk.C49_writer"], "note": "Fails: an outdent can end below the start, an offset is lost, width 0 panics. Proved for balanced sequences, and C49_writer for every object and block of the Turtle writer. C49_exact gives the depth after every run of operations and C49_iff says the property holds exactly when the width is positive and the offset less than the width."},
 {"property": "C50", "status": "partial", "theorems": ["Rdftk.C50_drawing_partial", "Rdftk.C50_keys_differ", "Rdftk.C50_statement", "Rdftk.C50_fails_prefix", "Rdftk.C50_fails_collection", "Rdftk.C50_fails_numbers", "Rdftk.C50_fails_uri", "Rdftk.C50_all_iff", "Rdftk.C50_iff", "Rdftk.C50_fails_each", "Rdftk.C50_command_iff"], "note": "Fails with another prefix (C50_fails_prefix), for collections and nested statements (C50_fails_collection), and for nodes displayed alike (C50_fails_numbers, C50_fails_uri). Proved with the usual prefix for graphs of IRIs, blank nodes and literals that are displayed differently, with an independent reader of the text; C50_keys_differ gives a sufficient condition. C50_iff says exactly which drawings are right: every node is drawable, different nodes have different keys, and the prefix is node_ or there are no statements; C50_fails_each: no graph with a collection or nested statement is drawn right. C50_all_iff drops the condition on the texts of the graph: the drawing is right if and only if, in addition, every label can stand in quotes (every value that the reader takes from a text can, so an unsafe label is never read back)."},
 {"property": "C51", "status": "partial", "theorems": ["Rdftk.C51_fails_brackets", "Rdftk.C51_fails_bracketed", "Rdftk.C51_fails", "Rdftk.C51_iff", "Rdftk.C51_ascii_partial", "Rdftk.C51_unique"], "note": "Fails always for the way IRIs now print, in brackets (C51_fails_brackets), and for bare texts with a local name outside ASCII (C51_fails), which the url crate does not produce. Proved: the exact condition for bare texts (C51_iff) and all of ASCII (C51_ascii_partial)."},
 {"property": "C52", "status": "partial", "theorems": ["Rdftk.C52_iff", "Rdftk.C52_fails_twice", "Rdftk.C52_fails", "Rdftk.C52_fails_bracketed", "Rdftk.C52_partial"], "note": "Fails whenever a property of a known namespace has two values (C52_fails_twice), and always in brackets. C52_iff: with bare IRIs it holds exactly otherwise."},
 {"property": "C53", "status": "proved", "theorems": ["Rdftk.C53_members", "Rdftk.C53_tables", "Rdftk.C53_across", "Rdftk.C53_cache"], "note": "C53_cache holds for any table, also one that names a term twice."},
 {"property": "C54", "status": "proved", "theorems": ["Rdftk.C54_member_distinct", "Rdftk.C54_member_qname", "Rdftk.C54_member_name"], "note": ""},
 {"property": "C55", "status": "proved", "theorems": ["Rdftk.C55_vocabularies", "Rdftk.C55_default_common", "Rdftk.C55_vocabulary_names"], "note": ""},
 {"property": "C56", "status": "partial", "theorems": ["Rdftk.C56_fails", "Rdftk.C56_terms_partial", "Rdftk.C56_terms_iff"], "note": "Nine members are not W3C terms; C56_fails, the list is exact in C56_terms_partial. C56_terms_iff says exactly which members are no terms of W3C."},
 {"property": "C57", "status": "proved", "theorems": ["Rdftk.C57_agree"], "note": ""},
 {"property": "C58", "status": "partial", "theorems": ["Rdftk.C58_duration_text_partial", "Rdftk.C58_fails"], "note": "False unless the nanoseconds are 0 or have nine digits; exact in C58_duration_text_partial."},
 {"property": "C59", "status": "partial", "theorems": ["Rdftk.C59_bare_partial", "Rdftk.C59_fails", "Rdftk.C59_iff", "Rdftk.C59_fails_always", "Rdftk.C59_names", "Rdftk.C59_types", "Rdftk.C59_convert"], "note": "Holds when IRIs print bare; false for the current Display of rdftk_iri (C59_fails). C59_iff says just when the statement holds."},
 {"property": "C60", "status": "proved", "theorems": ["Rdftk.C60_fragment", "Rdftk.C60_no_fragment", "Rdftk.C60_path"], "note": ""},
 {"property": "C61", "status": "proved", "theorems": ["Rdftk.C61_decode", "Rdftk.C61_clean", "Rdftk.C61_sets", "Rdftk.C61_opaque"], "note": "The same holds of opaque paths and the set for control characters."},
 {"property": "C62", "status": "proved", "theorems": ["Rdftk.C62_text", "Rdftk.C62_layout"], "note": ""},
 {"property": "C63", "status": "proved", "theorems": ["Rdftk.C63_order"], "note": ""},
 {"property": "C64", "status": "proved", "theorems": ["Rdftk.C64_refuses"], "note": ""},
 {"property": "C65", "status": "partial", "theorems": ["Rdftk.C65_fails", "Rdftk.C65_no_panic_partial", "Rdftk.C65_iff", "Rdftk.C65_read_iff"], "note": "Fails for a blank node object with a label of one character (C65_fails). Proved exactly: reading panics if and only if the first thing in the document that cannot be read is a blank node object without two bytes to cut off (C65_iff), and gives a graph if and only if everything can be read (C65_read_iff)."},
 {"property": "C66", "status": "partial", "theorems": ["Rdftk.C66_iff", "Rdftk.C66_bracketed_iff", "Rdftk.C66_form_partial", "Rdftk.C66_fails"], "note": "Fails for every IRI as subject, which is written in brackets in either style. C66_iff says exactly for which graphs the form is right with bare IRIs, C66_bracketed_iff with brackets."},
 {"property": "C67", "status": "partial", "theorems": ["Rdftk.C67_ends_iff", "Rdftk.C67_ends_partial", "Rdftk.C67_iff", "Rdftk.C67_fails", "Rdftk.C67_panics"], "note": "Fails for a blank node that is its own value (C67_fails) and panics for IRIs that cannot be divided (C67_panics). Proved: the exact condition with nested blank nodes (C67_ends_iff), and that the writer ends otherwise. C67_iff gives the exact condition when lines are not padded: every IRI of the graph is printed and, with nesting, there is no endless chain."},
 {"property": "C68", "status": "partial", "theorems": ["Rdftk.C68_reads_back_partial", "Rdftk.C68_written_partial", "Rdftk.C68_fails", "Rdftk.C68_fails_number", "Rdftk.C68_fails_nan", "Rdftk.C68_fails_collection", "Rdftk.C68_fails_nested", "Rdftk.C68_fails_iri"], "note": "Fails for the way IRIs now print (C68_fails) and with bare IRIs for numbers, NaN, collections, nested blank nodes and literals of the type IRI. Proved with bare IRIs for every graph whose statements are printed as they are (C68_reads_back_partial), with an independent W3C reader, and that such graphs are written."},
 {"property": "C69", "status": "partial", "theorems": ["Rdftk.C69_fails", "Rdftk.C69_same_meaning_partial", "Rdftk.C69_subjects", "Rdftk.C69_text_partial", "Rdftk.C69_single_partial"], "note": "Fails when a type or label predicate divides others (C69_fails). Proved that subjects are in strict order (C69_subjects), that the text does not depend on the order of the sets for graphs in which nothing is left to it (C69_text_partial, C69_single_partial), and that the meaning is the same for the graphs of C68 and C129."},
 {"property": "C70", "status": "partial", "theorems": ["Rdftk.C70_outer", "Rdftk.C70_fails", "Rdftk.C70_endless", "Rdftk.C70_nested_subject"], "note": "Fails always: C70_outer shows that the node is described by the statement around it; C70_endless and C70_nested_subject show that the writer then never ends or panics."},
 {"property": "C71", "status": "partial", "theorems": ["Rdftk.C71_accepted_partial", "Rdftk.C71_accepted_quads_partial", "Rdftk.C71_fails", "Rdftk.C71_fails_less", "Rdftk.C71_fails_dots", "Rdftk.C71_iff", "Rdftk.C71_quads_iff", "Rdftk.C71_unique", "Rdftk.C71_fails_greedy"], "note": "Fails: '[]' and '<' inside an IRI are accepted, two dots in a row in a label are refused, and a label takes what follows it where the grammar would end it (C71_fails, C71_fails_less, C71_fails_dots, C71_fails_greedy). Proved exactly, for N-Triples and N-Quads: a text is accepted if and only if it is a document of the grammar with these changes, and the lines hold what it says (C71_iff, C71_quads_iff, C71_unique)."},
 {"property": "C72", "status": "partial", "theorems": ["Rdftk.C72_both_partial", "Rdftk.C72_iff", "Rdftk.C72_fails"], "note": "Fails: the writer keeps the nodes of earlier graphs (C72_fails). Proved: the second drawing has the edges of the second graph and the nodes of both. C72_iff: the second drawing is right exactly if each node of the first graph is a node of the second."},
 {"property": "C73", "status": "partial", "theorems": ["Rdftk.C73_panics_partial", "Rdftk.C73_fails"], "note": "Fails for predicates such as urn:x (C73_fails). Proved: it panics exactly if some predicate cannot be split."},
 {"property": "C74", "status": "partial", "theorems": ["Rdftk.C74_iff", "Rdftk.C74_fails_brackets", "Rdftk.C74_fails_twice", "Rdftk.C74_fails", "Rdftk.C74_balanced", "Rdftk.C74_partial"], "note": "Fails for every graph with IRIs in brackets (C74_fails_brackets) and for two values of a known property (C74_fails_twice). Ends always match starts (C74_balanced); C74_iff is the exact condition for flat documents with bare IRIs."},
 {"property": "C75", "status": "partial", "theorems": ["Rdftk.C75_iff", "Rdftk.C75_fails", "Rdftk.C75_fails_bracketed", "Rdftk.C75_partial", "Rdftk.C75_unique"], "note": "Fails as C74. C75_iff is the exact condition with bare IRIs: no property of a known namespace has two values; then each statement is said once. C75_unique: the independent reading Spec.RdfXml gives one list of statements for a document, up to how data types are held."},
 {"property": "C76", "status": "partial", "theorems": ["Rdftk.C76_reads_partial", "Rdftk.C76_partial", "Rdftk.C76_fails", "Rdftk.C76_fails_bracketed", "Rdftk.C76_fails_resource", "Rdftk.C76_iff"], "note": "Fails: types are lost (C76_fails), documents with IRI values are refused (C76_fails_resource), in brackets nothing is well formed. Proved: exactly what is read for literals and blank nodes (C76_reads_partial) and that steady literals come back. C76_iff: exactly, a graph of readable statements comes back from its flat document when its literals have no type and texts that are neither escaped nor blank, no object is a blank node, and at most one object is an IRI, that of the statement written last (after an rdf:resource the reader takes the properties that follow for node elements and refuses further descriptions)."},
 {"property": "C77", "status": "partial", "theorems": ["Rdftk.C77_flat_partial", "Rdftk.C77_objects", "Rdftk.C77_fails", "Rdftk.C77_fails_blank", "Rdftk.C77_fails_id", "Rdftk.C77_fails_nested", "Rdftk.C77_fails_language", "Rdftk.C77_flat_iff", "Rdftk.C77_levels_partial", "Rdftk.C77_rejects_child", "Rdftk.C77_rejects_mixed", "Rdftk.C77_id_panics", "Rdftk.C77_id_base"], "note": "Fails for types, blank nodes, rdf:ID, nested elements and inherited languages. Proved for all documents of node elements and property elements with text (C77_levels_partial) and rejections for elements inside empty properties and after text; C77_objects shows that no typed literal or blank object is ever read. C77_flat_iff: the same exact condition for every flat document without repeated statements, whoever wrote it."},
 {"property": "C78", "status": "proved", "theorems": ["Rdftk.C78_ends", "Rdftk.C78_written"], "note": ""},
 {"property": "C79", "status": "partial", "theorems": ["Rdftk.C79_fails", "Rdftk.C79_fails_attribute", "Rdftk.C79_fails_element", "Rdftk.C79_fails_parseType", "Rdftk.C79_partial", "Rdftk.C79_iff", "Rdftk.C79_prefix", "Rdftk.C79_safe"], "note": "Fails for rdf:ID without base, names without namespace, Collection and other parse types. Proved for all documents without these. `C79_iff` says exactly when the reader panics: the events before some event are taken, and this event has one of eight faults, which are said of its name and attributes and of the kind of call that is open (`Spec.EventPanics`); what comes after does not matter (`C79_prefix`)."},
 {"property": "C80", "status": "partial", "theorems": ["Rdftk.C80_fails_lost", "Rdftk.C80_fails", "Rdftk.C80_fails_shared", "Rdftk.C80_fails_endless", "Rdftk.C80_partial", "Rdftk.C80_says", "Rdftk.C80_iff", "Rdftk.C80_ends_iff"], "note": "Fails: unreached blank nodes are not written (C80_fails_lost), shared ones are written twice (C80_fails_shared), circular ones without end (C80_fails_endless). Proved equal to the flat style without blank nodes. C80_says: a nested document says exactly the statements that IRIs lead to. C80_iff: it says the graph, up to labels, exactly when every statement is about an IRI or a node one leads to and no blank node is the object of two statements. C80_ends_iff: the recursion ends exactly when no endless chain of blank nodes starts at an IRI."},
 {"property": "C81", "status": "partial", "theorems": ["Rdftk.C81_fails", "Rdftk.C81_unwritten", "Rdftk.C81_partial", "Rdftk.C81_nested_iff", "Rdftk.C81_flat_iff", "Rdftk.C81_panics_iff"], "note": "Fails for a predicate without '#' and '/' (C81_fails; C81_unwritten for every such graph). For the flat style C81_flat_iff says exactly when a document is written and C81_panics_iff exactly when the writer panics. C81_nested_iff says exactly when the nested style is written, in either style of IRIs: the walks from resources through blank nodes have a longest one, and on them predicates can be split and objects be written."},
 {"property": "C82", "status": "proved", "theorems": ["Rdftk.C82_accepts", "Rdftk.C82_members", "Rdftk.C82_rejects", "Rdftk.C82_one", "Rdftk.C82_blank", "Rdftk.C82_depth"], "note": "C82_members: what is found under a name is the value given last."},
 {"property": "C83", "status": "partial", "theorems": ["Rdftk.C83_reads", "Rdftk.C83_iff", "Rdftk.C83_means_partial", "Rdftk.C83_fails"], "note": "Fails for escapes in strings, which are kept as they stand and escaped once more (C83_fails). C83_iff: it holds exactly for the documents whose literals have nothing to escape; C83_reads says what is read otherwise."},
 {"property": "C84", "status": "partial", "theorems": ["Rdftk.C84_fails_default", "Rdftk.C84_reads", "Rdftk.C84_iff", "Rdftk.C84_means_partial", "Rdftk.C84_fails"], "note": "Fails for any statement without a graph (C84_fails_default: always an error) and for escapes in strings. C84_iff: it holds exactly for the documents without these."},
 {"property": "C85", "status": "partial", "theorems": ["Rdftk.C85_fails", "Rdftk.C85_fails_source", "Rdftk.C85_reader", "Rdftk.C85_fails_target", "Rdftk.C85_convert_iff", "Rdftk.C85_nt_partial", "Rdftk.C85_draw", "Rdftk.C85_refused", "Rdftk.C85_success", "Rdftk.C85_xml_iff"], "note": "Fails: conversion from five representations and the namespace command always panic (C85_fails_source, C85_fails), conversion to JSON-LD and N3 panics whenever the input can be read (C85_fails_target). Proved for N-Triples without impossible escapes and four targets; C85_convert_iff reduces these targets to the readers and C85_xml_iff says exactly when conversion to XML panics."},
 {"property": "C86", "status": "partial", "theorems": ["Rdftk.C86_fails_trig", "Rdftk.C86_fails_bracketed", "Rdftk.C86_fails_quads", "Rdftk.C86_fails_json", "Rdftk.C86_iff", "Rdftk.C86_keeps_partial", "Rdftk.C86_fails", "Rdftk.C86_json_iff", "Rdftk.C86_json_again_iff"], "note": "Fails in the style the code prints IRIs in: N-Triples and RDF/JSON output is not read again (C86_fails_bracketed, C86_fails_json), N-Quads output never (C86_fails_quads), TriG output is empty (C86_fails_trig). C86_iff: with plain IRIs it holds for N-Triples exactly when no literal has anything to escape. C86_json_iff and C86_json_again_iff say exactly which graphs a conversion to RDF/JSON keeps, in either style."},
 {"property": "C87", "status": "proved", "theorems": ["Rdftk.C87_fresh"], "note": ""},
 {"property": "C88", "status": "proved", "theorems": ["Rdftk.C88_name", "Rdftk.C88_namespace", "Rdftk.C88_iri", "Rdftk.C88_local", "Rdftk.C88_prefixed", "Rdftk.C88_ref", "Rdftk.C88_map", "Rdftk.C88_map_injective"], "note": ""},
 {"property": "C89", "status": "partial", "theorems": ["Rdftk.C89_fails", "Rdftk.C89_fails_namespace", "Rdftk.C89_name_iff", "Rdftk.C89_namespace_iff", "Rdftk.C89_iri", "Rdftk.C89_map_partial", "Rdftk.C89_local_iff"], "note": "Fails: every string is read as a name or namespace (C89_fails, C89_fails_namespace). C89_name_iff, C89_namespace_iff, C89_local_iff say exactly what is read; IRIs go through the URL parser (C89_iri) and prefix maps stay one-to-one (C89_map_partial)."},
 {"property": "C90", "status": "partial", "theorems": ["Rdftk.C90_fails", "Rdftk.C90_fails_iri", "Rdftk.C90_statement_partial", "Rdftk.C90_subject_partial", "Rdftk.C90_object_partial", "Rdftk.C90_explicit", "Rdftk.C90_followed", "Rdftk.C90_iff", "Rdftk.C90_object_iff", "Rdftk.C90_subject_iff", "Rdftk.C90_literal_iff", "Rdftk.C90_fails_word"], "note": "Fails for numbers of different types and for literals of the type IRI (C90_fails, C90_fails_iri). Proved for statements of any depth without these; in the explicit form numbers are told apart (C90_explicit). C90_iff, C90_subject_iff, C90_object_iff and C90_literal_iff say exactly when two printed terms are the same: they differ at most in the types of numbers and in IRIs given as literals (Spec/Shape). C90_fails_word: a number whose text is no single word."},
 {"property": "C91", "status": "partial", "theorems": ["Rdftk.C91_iff", "Rdftk.C91_fails", "Rdftk.C91_fails_zero", "Rdftk.C91_partial", "Rdftk.C91_kinds"], "note": "Fails for NaN (C91_fails) and for zeros of different sign (C91_fails_zero). C91_iff says exactly when they are equal; C91_partial proves the property for all other pairs."},
 {"property": "C92", "status": "partial", "theorems": ["Rdftk.C92_iff", "Rdftk.C92_fails"], "note": "Fails for the infinities (C92_fails). C92_iff: it holds exactly for the others."},
 {"property": "C93", "status": "partial", "theorems": ["Rdftk.C93_iff", "Rdftk.C93_fails", "Rdftk.C93_fails_scale", "Rdftk.C93_partial"], "note": "Fails for every number with another digit after the point (C93_fails, C93_fails_scale). C93_iff says exactly when they are equal."},
 {"property": "C94", "status": "proved", "theorems": ["Rdftk.C94_denotes"], "note": ""},
 {"property": "C95", "status": "proved", "theorems": ["Rdftk.C95_resolves", "Rdftk.C95_components", "Rdftk.C95_distinct", "Rdftk.C95_iff", "Rdftk.C95_digits"], "note": ""},
 {"property": "C96", "status": "partial", "theorems": ["Rdftk.C96_expand", "Rdftk.C96_fails", "Rdftk.C96_partial", "Rdftk.C96_iff"], "note": "Fails for IRIs with the schemes xsd and rdf (C96_fails). C96_iff says exactly which data types print like no other; built-in types expand to their IRI (C96_expand)."},
 {"property": "C97", "status": "proved", "theorems": ["Rdftk.C97_values", "Rdftk.C97_new", "Rdftk.C97_anonymous", "Rdftk.C97_panic", "Rdftk.C97_order", "Rdftk.C97_predicate"], "note": "`C97_anonymous` says what a resource begun without a name is."},
 {"property": "C98", "status": "partial", "theorems": ["Rdftk.C98_reads", "Rdftk.C98_iff", "Rdftk.C98_distinct", "Rdftk.C98_text_panics", "Rdftk.C98_fails", "Rdftk.C98_fails_element", "Rdftk.C98_fails_ambiguous"], "note": "Fails for content without an element, which is a panic, and for every element, whose brackets are replaced (C98_fails, C98_fails_element, C98_fails_ambiguous). C98_reads says what is read when the content is one element, C98_iff when that is right."},
 {"property": "C99", "status": "partial", "theorems": ["Rdftk.C99_fragment_iff", "Rdftk.C99_path_iff", "Rdftk.C99_fails", "Rdftk.C99_fails_percent", "Rdftk.C99_fails_path"], "note": "Fails for braces, brackets and percent signs alone (C99_fails, C99_fails_percent, C99_fails_path). C99_fragment_iff and C99_path_iff say exactly for which texts it holds."},
 {"property": "C100", "status": "partial", "theorems": ["Rdftk.C100_partial", "Rdftk.C100_doubled", "Rdftk.C100_constructors", "Rdftk.C100_fails_always", "Rdftk.C100_fails", "Rdftk.C100_fails_assign", "Rdftk.C100_iff", "Rdftk.C100_count", "Rdftk.C100_fails_stays"], "note": "Fails for every graph made from statements, which then holds them twice (C100_fails_always, C100_doubled), and after an assignment through statements_mut. Proved for graphs that start empty, after any calls. The crate does not compile the file at present. C100_iff and C100_count follow each statement through any calls on a graph made from statements: it starts with twice as many copies in the graph as in the indices, and the property holds exactly when both numbers have become equal; C100_fails_stays: never as long as no statement is removed by itself and the graph is not cleared. `C100_constructors` says what the constructors make."},
 {"property": "C101", "status": "partial", "theorems": ["Rdftk.C101_seen", "Rdftk.C101_partial", "Rdftk.C101_fails"], "note": "Fails after a removal (C101_fails). No node is missing (C101_partial); C101_seen says exactly which are reported. C101_seen covers graphs made from statements too."},
 {"property": "C102", "status": "partial", "theorems": ["Rdftk.C102_partial", "Rdftk.C102_wildcard", "Rdftk.C102_fails", "Rdftk.C102_made", "Rdftk.C102_fails_dedup", "Rdftk.C102_iff", "Rdftk.C102_for"], "note": "Fails for every pattern with a part left out, which finds nothing (C102_wildcard). C102_iff says exactly for which patterns the right statements are found. C102_made says what is found in graphs made from statements, and C102_fails_dedup that nothing is found in them once duplicates are removed, though all statements are there."},
 {"property": "C103", "status": "proved", "theorems": ["Rdftk.C103_counts", "Rdftk.C103_dedup", "Rdftk.C103_removeAllFor", "Rdftk.C103_other", "Rdftk.C103_set"], "note": "For graphs that start empty; the duplicated statements of the constructor are C100."},
 {"property": "C104", "status": "partial", "theorems": ["Rdftk.C104_fails", "Rdftk.C104_iff", "Rdftk.C104_uri_iff", "Rdftk.C104_narrower"], "note": "Fails for instances (C104_fails): the inverse of broaderInstantial is itself. C104_iff and C104_uri_iff say for which relations it holds. The crate is not part of the workspace."},
 {"property": "C105", "status": "partial", "theorems": ["Rdftk.C105_ends_iff", "Rdftk.C105_lists", "Rdftk.C105_partial", "Rdftk.C105_collections", "Rdftk.C105_fails_cycle", "Rdftk.C105_fails_shared", "Rdftk.C105_fails"], "note": "Fails for cycles, on which the recursion never ends (C105_fails_cycle), and for concepts with two broader ones (C105_fails_shared). C105_ends_iff says exactly when it ends, C105_lists what is listed; proved in full for collections and for calls that share nothing."},
 {"property": "C106", "status": "partial", "theorems": ["Rdftk.C106_iff", "Rdftk.C106_partial", "Rdftk.C106_collections", "Rdftk.C106_fails"], "note": "Fails for concepts made with `related` (C106_fails). C106_iff says exactly which are described."},
 {"property": "C107", "status": "proved", "theorems": ["Rdftk.C107_statements", "Rdftk.C107_written_iff", "Rdftk.C107_blank", "Rdftk.C107_graph", "Rdftk.C107_members"], "note": "The texts of blank nodes come from a supply. Statements of blank nodes are those of the lists (C107_blank)."},
 {"property": "C108", "status": "partial", "theorems": ["Rdftk.C108_partial", "Rdftk.C108_fails_always", "Rdftk.C108_fails_link", "Rdftk.C108_fails", "Rdftk.C108_apart"], "note": "Fails for every ordered collection: there is no memberList (C108_fails_link), and the written nodes are no list (C108_fails_always). C108_partial says what is written."},
 {"property": "C109", "status": "partial", "theorems": ["Rdftk.C109_first", "Rdftk.C109_iff", "Rdftk.C109_other", "Rdftk.C109_fails", "Rdftk.C109_new"], "note": "Fails for a second label: the first is returned (C109_first, C109_iff)."},
 {"property": "C110", "status": "partial", "theorems": ["Rdftk.C110_iff", "Rdftk.C110_fails", "Rdftk.C110_fails_ambiguous", "Rdftk.C110_literal", "Rdftk.C110_made", "Rdftk.C110_has"], "note": "Fails for `available`, which uses the predicate of `created` (C110_iff: all others are right), and literals with a data type or a language are exact (C110_literal). C110_made: what each constructor of a property says."},
 {"property": "C111", "status": "partial", "theorems": ["Rdftk.C111_partial", "Rdftk.C111_iff", "Rdftk.C111_fails"], "note": "Fails if the namespace of a standard prefix is the default namespace (C111_iff, exact)."},
 {"property": "C112", "status": "partial", "theorems": ["Rdftk.C112_result", "Rdftk.C112_iff", "Rdftk.C112_fails", "Rdftk.C112_inverse", "Rdftk.C112_again", "Rdftk.C112_graph"], "note": "Fails for every thesaurus with a narrower or related concept (C112_iff). C112_result gives the changed thesaurus and the panics exactly; C112_again: each document adds the relations once more."},
 {"property": "C113", "status": "partial", "theorems": ["Rdftk.C113_partial", "Rdftk.C113_fails_classes", "Rdftk.C113_fails_labels", "Rdftk.C113_fails_preferred", "Rdftk.C113_fails", "Rdftk.C113_classes_iff", "Rdftk.C113_labels_iff", "Rdftk.C113_preferred_iff", "Rdftk.C113_properties"], "note": "Fails for each of the conditions (three witnesses); the calls check nothing. C113_partial gives conditions under which they hold. C113_classes_iff, C113_labels_iff and C113_preferred_iff say exactly which thesauri satisfy each condition."},
 {"property": "C114", "status": "partial", "theorems": ["Rdftk.C114_partial", "Rdftk.C114_iff", "Rdftk.C114_fails"], "note": "Fails for a concept with two broader ones (C114_fails): only neighbouring duplicates are removed. Order and completeness hold (C114_partial). The equality of concepts is a parameter. C114_iff says just when each concept is described once: no other concept with the same label between two occurrences."},
 {"property": "C115", "status": "partial", "theorems": ["Rdftk.C115_written", "Rdftk.C115_never", "Rdftk.C115_iff", "Rdftk.C115_fails", "Rdftk.C115_entailed", "Rdftk.C115_ancestors", "Rdftk.C115_property_ancestors"], "note": "Fails: parents are written as types (C115_fails). C115_written says exactly what is written, C115_iff that the statement holds exactly for vocabularies without parents, C115_entailed that nothing about subclasses follows from any written vocabulary but trivialities, C115_ancestors that it should."},
 {"property": "C116", "status": "proved", "theorems": ["Rdftk.C116_vector", "Rdftk.C116_order", "Rdftk.C116_classes", "Rdftk.C116_properties", "Rdftk.C116_frame", "Rdftk.C116_tests", "Rdftk.C116_class_made", "Rdftk.C116_property_made"], "note": "Proved for all sequences of calls, and for what each constructor makes."},
 {"property": "C117", "status": "partial", "theorems": ["Rdftk.C117_axioms_iff", "Rdftk.C117_fails", "Rdftk.C117_property", "Rdftk.C117_domains", "Rdftk.C117_names", "Rdftk.C117_members", "Rdftk.C117_taxonomy", "Rdftk.C117_property_parents", "Rdftk.C117_instances"], "note": "Fails: rdf:Property is replaced by a name that RDFS does not have, and subclasses are written as instances (C117_fails). C117_axioms_iff says exactly which axioms are written; C117_instances gives written statements that do not follow from the schema. C117_members, C117_taxonomy and C117_property_parents say which members, which parents and which types are given."},
 {"property": "C118", "status": "partial", "theorems": ["Rdftk.C118_written_iff", "Rdftk.C118_read", "Rdftk.C118_delimiter", "Rdftk.C118_iff", "Rdftk.C118_fails", "Rdftk.C118_partial", "Rdftk.C118_lines", "Rdftk.C118_records", "Rdftk.C118_fails_reader"], "note": "Fails for results without columns (C118_fails); C118_iff says exactly when it holds, C118_partial that it does for results with columns. C118_written_iff says exactly what can be written, C118_records which records and C118_lines their text. The crate's own reader panics on every text (C118_fails_reader)."},
 {"property": "C119", "status": "partial", "theorems": ["Rdftk.C119_csv_iff", "Rdftk.C119_tsv_iff", "Rdftk.C119_fails", "Rdftk.C119_header", "Rdftk.C119_fails_iris"], "note": "Fails for blank nodes (C119_fails), and no style of IRIs is right for both formats (C119_fails_iris). C119_csv_iff and C119_tsv_iff say exactly which values have the right form, C119_header the same for the first line."},
 {"property": "C120", "status": "partial", "theorems": ["Rdftk.C120_succeeds_iff", "Rdftk.C120_unchanged", "Rdftk.C120_fails", "Rdftk.C120_iff"], "note": "Fails: the file is opened for reading, and never changed (C120_fails, C120_unchanged), yet the call succeeds for texts up to 8192 bytes (C120_succeeds_iff). C120_iff says exactly when the statement holds of a call."},
 {"property": "C121", "status": "partial", "theorems": ["Rdftk.C121_exact", "Rdftk.C121_iff", "Rdftk.C121_fails", "Rdftk.C121_cut", "Rdftk.C121_fails_bare", "Rdftk.C121_fails_from_str"], "note": "Fails for names with underscores (C121_fails, C121_cut); C121_iff says these are the only ones, and C121_exact says exactly what is read. Bare words are read too (C121_fails_bare), and the conversion of text to a variable always panics (C121_fails_from_str)."},
 {"property": "C122", "status": "proved", "theorems": ["Rdftk.C122_space", "Rdftk.C122_iff", "Rdftk.C122_unique"], "note": "Proved in both directions for all texts."},
 {"property": "C123", "status": "partial", "theorems": ["Rdftk.C123_single", "Rdftk.C123_iri", "Rdftk.C123_iff", "Rdftk.C123_fails", "Rdftk.C123_fails_end", "Rdftk.C123_fails_namespace", "Rdftk.C123_fails_space", "Rdftk.C123_percent_iff", "Rdftk.C123_fails_percent", "Rdftk.C123_escape", "Rdftk.C123_percent_short"], "note": "Fails for every local name of two or more characters (C123_fails, C123_iff); without white space after it no name is read (C123_fails_end), nor a prefix and a colon alone (C123_fails_namespace), while white space after the colon is (C123_fails_space). Percent escapes are read in base ten, so most give a wrong character (C123_percent_iff) or a panic (C123_fails_percent). `C123_iri` says that an `iri` is a reference or a prefixed name."},
 {"property": "C124", "status": "partial", "theorems": ["Rdftk.C124_base", "Rdftk.C124_prefix", "Rdftk.C124_no_prefix", "Rdftk.C124_partial", "Rdftk.C124_fails_base", "Rdftk.C124_fails", "Rdftk.C124_fails_comment", "Rdftk.C124_fails_dot", "Rdftk.C124_fails_space"], "note": "Fails for BASE with the IRI at once after it (C124_fails, C124_fails_base) and for comments (C124_fails_comment); prefixes that end in a dot are taken (C124_fails_dot). C124_partial: any number of declarations without these. C124_fails_space: a prefix that begins with U+1680 is declared without it."},
 {"property": "C125", "status": "partial", "theorems": ["Rdftk.C125_read", "Rdftk.C125_sound", "Rdftk.C125_iff", "Rdftk.C125_fails_hyphen", "Rdftk.C125_keyword_base", "Rdftk.C125_keyword_prefix", "Rdftk.C125_boolean"], "note": "C125_read and C125_sound: tags; C125_keyword_base, C125_keyword_prefix and C125_boolean say exactly what is read. A hyphen after a tag that begins no part is an error (C125_fails_hyphen). When a language tag is read, and which, is now given exactly (C125_iff): a digit after a tag of one part is left for what follows, after a further part it belongs to it."},
 {"property": "C126", "status": "proved", "theorems": ["Rdftk.C126_concepts", "Rdftk.C126_collections", "Rdftk.C126_scheme"], "note": "Proved for all sequences of calls: what is made, in order, and what is said of each."},
 {"property": "C127", "status": "partial", "theorems": ["Rdftk.C127_reads", "Rdftk.C127_unique", "Rdftk.C127_iff", "Rdftk.C127_partial", "Rdftk.C127_fails", "Rdftk.C127_fails_more"], "note": "Fails for literals with anything to escape (C127_fails); C127_reads says exactly what is read, C127_iff exactly when it is what the document says. Documents that are not of the form of the note are read too (C127_fails_more); C65_read_iff says exactly which."},
 {"property": "C128", "status": "partial", "theorems": ["Rdftk.C128_text", "Rdftk.C128_iff", "Rdftk.C128_fails", "Rdftk.C128_lost", "Rdftk.C128_kinds", "Rdftk.C128_empty"], "note": "Fails for every formula with a statement: the brace is not closed (C128_fails, C128_iff). C128_text says exactly what is printed; without statements the variables are lost (C128_lost)."},
 {"property": "C129", "status": "partial", "theorems": ["Rdftk.C129_says", "Rdftk.C129_iff", "Rdftk.C129_flat", "Rdftk.C129_literal_iff", "Rdftk.C129_fails", "Rdftk.C129_order"], "note": "Fails when a nested blank node is also a subject or the object of two statements (C129_fails), and only then (C129_iff). In any case the text says the statements of the graph once the nodes have their labels back (C129_says). Types of numbers: C129_literal_iff. Collections are left out: C68_fails_collection. Predicates that are written as rdf:type are covered: the text says them with that predicate, and C129_iff says that then it does not say the graph."},
 {"property": "C130", "status": "proved", "theorems": ["Rdftk.C130_labels", "Rdftk.C130_all"], "note": ""},
 {"property": "C131", "status": "partial", "theorems": ["Rdftk.C131_iff", "Rdftk.C131_partial", "Rdftk.C131_fails", "Rdftk.C131_fails_ambiguous", "Rdftk.C131_table"], "note": "Fails for a data type without a prefix: the predicate is shown instead (C131_fails), so that properties of different types look alike (C131_fails_ambiguous). C131_iff says exactly when a row is right, C131_table what the table is."},
 {"property": "C132", "status": "partial", "theorems": ["Rdftk.C132_anchors", "Rdftk.C132_iff", "Rdftk.C132_partial", "Rdftk.C132_fails", "Rdftk.C132_fails_collections"], "note": "Fails: the link to the collections leads nowhere, or to the list of the collections of some resource and never to the part about collections (C132_fails, C132_fails_collections). C132_iff says exactly when every link leads somewhere, C132_anchors where links can lead."},
 {"property": "C133", "status": "proved", "theorems": ["Rdftk.C133_chains", "Rdftk.C133_entries", "Rdftk.C133_sorted", "Rdftk.C133_ends_iff"], "note": ""},
 {"property": "C134", "status": "partial", "theorems": ["Rdftk.C134_iff", "Rdftk.C134_partial", "Rdftk.C134_fails"], "note": "Fails for concepts with external relations only: there is no table (C134_fails). C134_iff says exactly when all are shown."},
 {"property": "C135", "status": "proved", "theorems": ["Rdftk.C135_outline", "Rdftk.C135_thesaurus", "Rdftk.C135_ends_iff"], "note": ""},
 {"property": "C136", "status": "proved", "theorems": ["Rdftk.C136_concept", "Rdftk.C136_membership", "Rdftk.C136_members"], "note": ""},
 {"property": "C137", "status": "proved", "theorems": ["Rdftk.C137_sections", "Rdftk.C137_rows"], "note": ""},
 {"property": "C138", "status": "partial", "theorems": ["Rdftk.C138_iff", "Rdftk.C138_partial", "Rdftk.C138_fails", "Rdftk.C138_names"], "note": "Fails for labels, properties and external relations named by a URN, for which the division of the IRI panics (C138_fails). C138_iff says exactly when, C138_partial that there is no other way to panic."},
 {"property": "C139", "status": "partial", "theorems": ["Rdftk.C139_fails", "Rdftk.C139_fails_label", "Rdftk.C139_partial", "Rdftk.C139_stmts", "Rdftk.C139_quads", "Rdftk.C139_written", "Rdftk.C139_many", "Rdftk.C139_order", "Rdftk.C139_order_quads"], "note": "Fails if the first document ends within a line: in a comment, or with a blank node whose label can go on (C139_fails, C139_fails_label). C139_partial gives what is read behind any document that ends with the end of a line (C139_quads for N-Quads); all written documents do (C139_written). C139_order and C139_order_quads: the order of lines does not matter. C139_many is for any number of documents."},
 {"property": "C140", "status": "partial", "theorems": ["Rdftk.C140_fails", "Rdftk.C140_lines", "Rdftk.C140_iff", "Rdftk.C140_written"], "note": "Fails for a repeated line (C140_fails). C140_lines: one statement for each line, in order. C140_iff: each is held once exactly if no two lines stand for the same statement. Writing makes them one again (C140_written)."},
 {"property": "C141", "status": "proved", "theorems": ["Rdftk.C141_turtle", "Rdftk.C141_panic", "Rdftk.C141_dot", "Rdftk.C141_xml", "Rdftk.C141_trig", "Rdftk.C141_flag", "Rdftk.C141_defaults"], "note": ""},
 {"property": "C142", "status": "partial", "theorems": ["Rdftk.C142_fails", "Rdftk.C142_fails_zero", "Rdftk.C142_iff"], "note": "Fails for the style of IntelliJ, which sets the width in one of the two (C142_fails), and for a width of 0, which panics in one of the two (C142_fails_zero). C142_iff: in no other case."},
 {"property": "C143", "status": "partial", "theorems": ["Rdftk.C143_iff", "Rdftk.C143_fails", "Rdftk.C143_verb", "Rdftk.C143_others"], "note": "Fails: `a` for types, converted bases and the column of the end of collections cannot be chosen (C143_fails). C143_iff: everything else can. C143_verb: so `a` is never written."},
 {"property": "C144", "status": "partial", "theorems": ["Rdftk.C144_iff", "Rdftk.C144_without", "Rdftk.C144_fails", "Rdftk.C144_fails_without"], "note": "Fails: the option is used the wrong way round, with it there is no padding (C144_fails), and without it there is (C144_without). C144_iff says exactly when objects are in one column with it."},
 {"property": "C145", "status": "partial", "theorems": ["Rdftk.C145_never", "Rdftk.C145_fails_all", "Rdftk.C145_fails", "Rdftk.C145_values", "Rdftk.C145_star", "Rdftk.C145_dataset", "Rdftk.C145_fails_two", "Rdftk.C145_having", "Rdftk.C145_nothing"], "note": "The file is not compiled: it calls `choice()` without alternatives, taken here as a parser that always fails, and `integer`, which does not exist and is any parser that reads no brace here. Fails for all such queries (C145_fails_all): no text with a brace is read (C145_never). C145_values: what is read ends with the word OFFSETVALUES, two words of the grammar written as one. C145_fails_two: two variables with a space between them are not read. All that a `HAVING` clause can be is described by `C145_having`; the parts that are not implemented use up nothing (`C145_nothing`)."},
 {"property": "C146", "status": "partial", "theorems": ["Rdftk.C146_prologue", "Rdftk.C146_fails", "Rdftk.C146_graph_iff", "Rdftk.C146_fails_prefixed", "Rdftk.C146_words_iff"], "note": "The file is not compiled, as for C145. Fails: an update is read as a prologue and nothing more (C146_prologue, C146_fails). References to graphs are exact (C146_graph_iff, C146_words_iff), and prefixed names are none (C146_fails_prefixed)."},
 {"property": "C147", "status": "partial", "theorems": ["Rdftk.C147_exact", "Rdftk.C147_fails_all", "Rdftk.C147_fails", "Rdftk.C147_source_iff", "Rdftk.C147_fails_tokenizer", "Rdftk.C147_chain", "Rdftk.C147_unique", "Rdftk.C147_fails_unique"], "note": "Fails for every error: there are as many empty lines at the end as messages (C147_fails_all, C147_exact). The cause of an error of a tokenizer is not named as its source (C147_source_iff, C147_fails_tokenizer). C147_unique: messages without line breaks can be told from the trace; with line breaks they cannot (C147_fails_unique)."},
 {"property": "C148", "status": "proved", "theorems": ["Rdftk.C148_list", "Rdftk.C148_texts", "Rdftk.C148_expected", "Rdftk.C148_single", "Rdftk.C148_message", "Rdftk.C148_kind", "Rdftk.C148_fields"], "note": "C148_fields: the texts in an error cannot always be told from the message. Messages contain the texts of errors; a text that is the only one, and the list of what a parser expected, can be told from the message."},
 {"property": "C149", "status": "partial", "theorems": ["Rdftk.C149_grammar", "Rdftk.C149_fails_each", "Rdftk.C149_iff", "Rdftk.C149_fails", "Rdftk.C149_slices", "Rdftk.C149_slices_text", "Rdftk.C149_written", "Rdftk.C149_fails_written"], "note": "Every document of N-Triples is in the grammar of N-Quads, but the reader refuses each that says anything (C149_fails_each, C149_iff); per named graph the readers agree in order and number (C149_slices, C149_slices_text), and so do the writers (C149_written), so the text of a default graph is not read back (C149_fails_written)."},
 {"property": "C150", "status": "partial", "theorems": ["Rdftk.C150_reads", "Rdftk.C150_doubles", "Rdftk.C150_long", "Rdftk.C150_iff", "Rdftk.C150_fails_bracketed", "Rdftk.C150_fails", "Rdftk.C150_keeps_partial", "Rdftk.C150_at_most"], "note": "Fails in either style: with brackets no document with a statement can be converted twice (C150_fails_bracketed); without, literals are escaped once more each time (C150_reads), the backslashes double (C150_doubles), and the text grows exponentially (C150_long). C150_iff: a graph is kept exactly when no literal has a quote or a backslash."},
 {"property": "C151", "status": "proved", "theorems": ["Rdftk.C151_denotes", "Rdftk.C151_equals", "Rdftk.C151_injective", "Rdftk.C151_std", "Rdftk.C151_across", "Rdftk.C151_not_std"], "note": "C151_denotes, C151_equals, C151_injective hold for every duration. C151_std and C151_across: exactly where From<Duration> writes the same text; C151_not_std: never equal to a std::time::Duration."},
 {"property": "C152", "status": "proved", "theorems": ["Rdftk.C152_prefix", "Rdftk.C152_map_iff", "Rdftk.C152_lines", "Rdftk.C152_ref_iff", "Rdftk.C152_ref_alternate"], "note": "C152_map_iff, C152_lines, C152_ref_iff, C152_ref_alternate, C152_prefix. Prefixes and IRIs are without spaces, as those that were parsed are."},
 {"property": "C153", "status": "partial", "theorems": ["Rdftk.C153_iff", "Rdftk.C153_fails_bracketed", "Rdftk.C153_fails", "Rdftk.C153_partial"], "note": "C153_iff, C153_fails, C153_fails_bracketed, C153_partial. Parsed IRIs are taken to have a scheme and no character that the crate escapes, and no IRI of the graph is one on which splitting panics. That the IRIs can be divided is no hypothesis: it follows from the text having been written (written_prints, written_split)."},
 {"property": "C154", "status": "partial", "theorems": ["Rdftk.C154_prefix", "Rdftk.C154_iff", "Rdftk.C154_fails", "Rdftk.C154_fails_chain", "Rdftk.C154_partial"], "note": "C154_prefix, C154_iff, C154_fails (one pair moves an IRI under a prefix that is moved too), C154_fails_chain (pairs are applied one after the other to IRIs and one only to prefixes), C154_partial. No call of the public interface sets these pairs (C143_iff)."},
 {"property": "C155", "status": "partial", "theorems": ["Rdftk.C155_iff", "Rdftk.C155_fails", "Rdftk.C155_partial"], "note": "C155_iff, C155_fails, C155_partial. With the brackets the code writes twice nothing can be read (C153_fails_bracketed). No hypothesis on dividing IRIs: it follows from the text having been written."},
 {"property": "C156", "status": "partial", "theorems": ["Rdftk.C156_iff", "Rdftk.C156_fails_bracketed", "Rdftk.C156_fails", "Rdftk.C156_fails_twice", "Rdftk.C156_partial"], "note": "C156_iff, C156_fails, C156_fails_bracketed, C156_fails_twice, C156_partial. The text itself is made by the XML crate; what the crate is given is taken as in C74."},
 {"property": "C157", "status": "partial", "theorems": ["Rdftk.C157_unique", "Rdftk.C157_says", "Rdftk.C157_iff", "Rdftk.C157_fails_bracketed", "Rdftk.C157_fails", "Rdftk.C157_partial"], "note": "C157_unique, C157_says, C157_iff, C157_fails, C157_fails_bracketed, C157_partial. Unlike C86 the result is judged by the grammar: a literal with a tab is read wrongly (C83) and yet the converted document is right, since writer and reader take back each other's mistake."},
 {"property": "C158", "status": "partial", "theorems": ["Rdftk.C158_iff", "Rdftk.C158_fails_bracketed", "Rdftk.C158_fails", "Rdftk.C158_partial"], "note": "C158_iff, C158_fails, C158_fails_bracketed, C158_partial."},
 {"property": "C159", "status": "partial", "theorems": ["Rdftk.C159_iff", "Rdftk.C159_fails_bracketed", "Rdftk.C159_partial", "Rdftk.C159_fails"], "note": "C159_iff (texts of numbers do not start like other terms and those of xsd:anyURI are IRIs), C159_fails, C159_fails_bracketed, C159_partial."},
 {"property": "C160", "status": "partial", "theorems": ["Rdftk.C160_iff", "Rdftk.C160_fails_bracketed", "Rdftk.C160_fails", "Rdftk.C160_partial", "Rdftk.C160_again"], "note": "C160_iff, C160_fails, C160_fails_bracketed, C160_again, C160_partial."},
 {"property": "C161", "status": "partial", "theorems": ["Rdftk.C161_iff", "Rdftk.C161_fails_bracketed", "Rdftk.C161_partial", "Rdftk.C161_fails"], "note": "C161_iff, C161_fails, C161_fails_bracketed, C161_partial."},
 {"property": "C162", "status": "partial", "theorems": ["Rdftk.C162_iff", "Rdftk.C162_partial", "Rdftk.C162_fails"], "note": "C162_iff (numbers without quotes are numbers of Turtle, no xsd:anyURI, the writer ends), C162_fails, C162_partial; brackets by C153_fails_bracketed. No hypothesis on dividing IRIs: it follows from the text having been written (terms_split)."},
 {"property": "C163", "status": "partial", "theorems": ["Rdftk.C163_reads", "Rdftk.C163_iff", "Rdftk.C163_fails_bracketed", "Rdftk.C163_partial", "Rdftk.C163_fails"], "note": "C163_reads, C163_iff, C163_fails_bracketed, C163_fails (types), C163_partial (two levels, nothing escaped). How texts become events is a parameter; node identifiers do not begin with _:."},
 {"property": "C164", "status": "partial", "theorems": ["Rdftk.C164_iff", "Rdftk.C164_fails_bracketed", "Rdftk.C164_fails", "Rdftk.C164_partial"], "note": "C164_iff (triples without blank objects), C164_fails_bracketed, C164_fails (an IRI as subject), C164_partial (two levels, blank subjects)."},
 {"property": "C165", "status": "partial", "theorems": ["Rdftk.C165_iff", "Rdftk.C165_fails_bracketed", "Rdftk.C165_partial", "Rdftk.C165_fails"], "note": "C165_iff (what is read can be said in RDF/XML), C165_fails_bracketed, C165_fails (types), C165_partial (two levels)."},
 {"property": "C166", "status": "partial", "theorems": ["Rdftk.C166_iff", "Rdftk.C166_partial", "Rdftk.C166_fails"], "note": "C166_iff (the writer ends), C166_fails, C166_partial (two levels); brackets by C153_fails_bracketed. No hypothesis on dividing IRIs: it follows from the text having been written (terms_split)."},
 {"property": "C167", "status": "partial", "theorems": ["Rdftk.C167_unique", "Rdftk.C167_says", "Rdftk.C167_iff", "Rdftk.C167_fails_bracketed", "Rdftk.C167_fails", "Rdftk.C167_partial"], "note": "C167_unique, C167_says, C167_iff, C167_fails, C167_fails_bracketed, C167_partial."},
 {"property": "C168", "status": "partial", "theorems": ["Rdftk.C168_interpolation", "Rdftk.C168_partial", "Rdftk.C168_iff", "Rdftk.C168_fails", "Rdftk.C168_fails_used"], "note": "Simple entailment is defined from interpretations (Spec/Entail.lean), not from instances; C168_interpolation is the lemma of the W3C document. C168_fails: a blank node in a collection keeps its label while its other occurrences become an IRI. C168_fails_used: with a new IRI that is already in the graph more follows."},
 {"property": "C169", "status": "partial", "theorems": ["Rdftk.C169_sound", "Rdftk.C169_needs", "Rdftk.C169_iff", "Rdftk.C169_partial", "Rdftk.C169_nt_iff", "Rdftk.C169_fails", "Rdftk.C169_fails_type", "Rdftk.C169_json_partial", "Rdftk.C169_json_needs", "Rdftk.C169_json_iff", "Rdftk.C169_xml_iff"], "note": "C169_sound holds with shared and nested blank nodes, where C129 and C153 fail: the text then says less, never more. C169_iff is exact for graphs without blank nodes as objects. C169_fails_type: rdfs:subClassOf becomes rdf:type, which does not follow. The same soundness is shown for Turtle made from RDF/JSON and RDF/XML documents (`C169_json_partial`, `C169_json_iff`, `C169_xml_iff`), with exactly the literals that are not printed well as the exceptions."},
 {"property": "C170", "status": "partial", "theorems": ["Rdftk.C170_sound", "Rdftk.C170_partial", "Rdftk.C170_fails"], "note": "C170_sound holds for shared and unreached nodes, where C80 fails. C170_fails: statements about nodes that nothing refers to are lost."},
 {"property": "C171", "status": "partial", "theorems": ["Rdftk.C171_iff", "Rdftk.C171_json_iff", "Rdftk.C171_xml_iff", "Rdftk.C171_fails", "Rdftk.C171_fails_endless", "Rdftk.C171_partial"], "note": "C171_fails: a document with urn:a is not converted, at any depth. C171_fails_endless: nor is a blank node that is its own value. C171_iff, C171_json_iff and C171_xml_iff are exact for the three formats; together with C155, C162 and C166, which assume success, they say for every document what becomes of it. C171_partial: IRIs with an authority or an absolute path, and no blank node both subject and object."},
 {"property": "C172", "status": "partial", "theorems": ["Rdftk.C172_texts", "Rdftk.C172_xml_iff", "Rdftk.C172_draw_iff", "Rdftk.C172_fails", "Rdftk.C172_fails_draw", "Rdftk.C172_partial"], "note": "C172_fails and C172_fails_draw: the predicate urn:p. C172_xml_iff assumes predicates of ASCII characters, which the URL parser guarantees. C172_partial collects what holds. Turtle is C171."},
 {"property": "C173", "status": "partial", "theorems": ["Rdftk.C173_brackets", "Rdftk.C173_walks", "Rdftk.C173_partial", "Rdftk.C173_labels", "Rdftk.C173_doubles", "Rdftk.C173_fails"], "note": "C173_doubles: a document of at most 50·n(n+1) characters gives text of at least 2^n; so C173_fails in either style. C173_brackets and C173_walks bound the text from below and above for every graph; C173_partial and C173_labels are the cases in which it is linear."},
 {"property": "C174", "status": "partial", "theorems": ["Rdftk.C174_nested", "Rdftk.C174_flat", "Rdftk.C174_partial", "Rdftk.C174_doubles", "Rdftk.C174_fails"], "note": "C174_doubles: 2n+1 statements give at least 2^n events in the nested style; so C174_fails in either style of IRIs. C174_nested and C174_flat bound the events from below and above; C174_partial is the linear case."},
 {"property": "C175", "status": "partial", "theorems": ["Rdftk.C175_panic", "Rdftk.C175_error", "Rdftk.C175_ends", "Rdftk.C175_panics_iff", "Rdftk.C175_errors_iff", "Rdftk.C175_fails", "Rdftk.C175_fails_sorted", "Rdftk.C175_single", "Rdftk.C175_nt", "Rdftk.C175_nt_iff", "Rdftk.C175_nt_endless", "Rdftk.C175_json"], "note": "The statement fails: the division of an IRI without a hierarchical path panics (`C175_fails`), and with padding an error among predicates that are sorted becomes a panic (`C175_fails_sorted`; alone it is an error, `C175_single`). Proved: where every panic and every error comes from (`C175_panic`, `C175_error`), that the writer ends (`C175_ends`), exact conditions (`C175_panics_iff`, `C175_errors_iff`), and for documents `C175_nt`, `C175_nt_iff`, `C175_nt_endless`, `C175_json`."},
 {"property": "C176", "status": "proved", "theorems": ["Rdftk.C176_block", "Rdftk.C176_object", "Rdftk.C176_triples", "Rdftk.C176_zero", "Rdftk.C176_text", "Rdftk.C176_base_sparql", "Rdftk.C176_base", "Rdftk.C176_prefix_sparql", "Rdftk.C176_prefix", "Rdftk.C176_prefixes", "Rdftk.C176_end"], "note": "The width must not be zero for anything to be written at all (`C176_zero`), so no hypothesis on it is needed. The orders of the predicates of a subject and of the objects of a predicate are left open here (see C69)."},
 {"property": "C177", "status": "proved", "theorems": ["Rdftk.C177_subject", "Rdftk.C177_object", "Rdftk.C177_name", "Rdftk.C177_graphName", "Rdftk.C177_blankNamed", "Rdftk.C177_blank_distinct", "Rdftk.C177_rdfType", "Rdftk.C177_features", "Rdftk.C177_features_graph", "Rdftk.C177_announced", "Rdftk.C177_indexed", "Rdftk.C177_ofSubject"], "note": "Equality of statements is that of their values; `Arc` is transparent. From a `Name` a blank node is made, also for subjects and objects, though a name is no label in RDF."},
 {"property": "C178", "status": "partial", "theorems": ["Rdftk.C178_len", "Rdftk.C178_all", "Rdftk.C178_fails", "Rdftk.C178_fails_always", "Rdftk.C178_bounds"], "note": "`size_hint` is not defined, so it is `(0, None)`, against the contract of `ExactSizeIterator` (the hint must be exact). The consequence is at most a panic in the default `len`, which is overridden, and less good allocation in `collect`."},
 {"property": "C179", "status": "proved", "theorems": ["Rdftk.C179_word", "Rdftk.C179_literal", "Rdftk.C179_triple", "Rdftk.C179_subject", "Rdftk.C179_object", "Rdftk.C179_key", "Rdftk.C179_bytes"], "note": "Collections with 2^64 or more members are left out (`Spec.SmallObject`): their lengths would be cut off, and no machine has them. The derived implementations are taken to be those of the compiler and the standard library; a language tag writes its text (in the crate it also writes positions in it, which the text determines). A word is eight bytes, the lowest first, and they give the word back (C179_word); this was added because the solver did not end on a wrong program instead of failing."},
 {"property": "C180", "status": "proved", "theorems": ["Rdftk.C180_iff", "Rdftk.C180_graph", "Rdftk.C180_one", "Rdftk.C180_error"], "note": "The grammar says what the code does; C77 says where this differs from the W3C grammar."},
 {"property": "C181", "status": "proved", "theorems": ["Rdftk.C181_ends", "Rdftk.C181_left", "Rdftk.C181_whole"], "note": "The number of steps of the model stands for the depth of the calls; pest has no such bound."},
 {"property": "C182", "status": "proved", "theorems": ["Rdftk.C182_readers", "Rdftk.C182_same", "Rdftk.C182_refuses", "Rdftk.C182_end", "Rdftk.C182_bytes"], "note": "Until here the readers were written by hand after the grammar; the theorem shows that this was faithful. C182_end says what the unreachable branch of the loop needs, C182_bytes exactly where a text can be cut."},
 {"property": "C183", "status": "proved", "theorems": ["Rdftk.C183_included", "Rdftk.C183_accepted"], "note": "The readers of Turtle, TriG and N3 are todo!() in the code; the grammar is all there is of them."},
 {"property": "C184", "status": "partial", "theorems": ["Rdftk.C184_trig_iff", "Rdftk.C184_n3_iff", "Rdftk.C184_partial", "Rdftk.C184_iff", "Rdftk.C184_fails_prefix", "Rdftk.C184_prefix", "Rdftk.C184_quoted", "Rdftk.C184_fails", "Rdftk.C184_fails_quoted", "Rdftk.C184_flat_partial"], "note": "N3 wants a second dot after @prefix; TriG refuses documents that begin with <<. Over all texts Turtle reads, C184_trig_iff and C184_n3_iff say from the tree of the parse which of them TriG and N3 read: TriG all without a statement about a quoted statement, N3 all without `@prefix`, `@base` and quoted statements at an end. C184_iff says it for both and that what N3 reads of Turtle TriG reads too. C184_fails_prefix is a text both read, to different effect: `PREFIXa: <a:b> [ <a:p> <a:o> ] .` is a directive and a statement for Turtle, one statement about `PREFIXa:` for N3."},
 {"property": "C185", "status": "partial", "theorems": ["Rdftk.C185_verb", "Rdftk.C185_refused", "Rdftk.C185_fails", "Rdftk.C185_others_partial", "Rdftk.C185_iff"], "note": "=> is hidden behind =. C185_iff says that of the three signs only the arrow to the right is refused, with IRIs and formulas of any depth on both sides."},
 {"property": "C186", "status": "partial", "theorems": ["Rdftk.C186_spaces", "Rdftk.C186_type", "Rdftk.C186_fails", "Rdftk.C186_type_iff"], "note": "PNAME_NS and PNAME_LN are not atomic: <i> a :x . is refused, as a :x is read as one name. C186_type_iff says for which types a statement with `a` is read."},
 {"property": "C187", "status": "partial", "theorems": ["Rdftk.C187_iff", "Rdftk.C187_fails"], "note": "Just the ones without line ends are read."},
 {"property": "C188", "status": "partial", "theorems": ["Rdftk.C188_reads_partial", "Rdftk.C188_bracketed", "Rdftk.C188_fails", "Rdftk.C188_members", "Rdftk.C188_fails_type", "Rdftk.C188_fails_nan"], "note": "False as the code stands: an IRI is printed in two pairs of brackets and no statement begins so (C188_bracketed, for every such graph). With one pair it still fails for commas between the members of a collection, for `a` before a name with the empty prefix and for numbers such as NaN; otherwise every document is read (C188_reads_partial). Numbers of all three kinds may stand as objects."},
 {"property": "C189", "status": "proved", "theorems": ["Rdftk.C189_longest", "Rdftk.C189_none", "Rdftk.C189_kinds"], "note": "The definitions of the numbers are those of the recommendation, in Spec/Tokens.lean."},
 {"property": "C190", "status": "partial", "theorems": ["Rdftk.C190_prefix_iff", "Rdftk.C190_local_iff", "Rdftk.C190_fails", "Rdftk.C190_fails_quote"], "note": "False for two dots in a row, and for an escaped quote: the grammar has three quotes there. All other names are read (C190_prefix_iff, C190_local_iff)."},
 {"property": "C191", "status": "proved", "theorems": ["Rdftk.C191_spans", "Rdftk.C191_parts", "Rdftk.C191_apart"], "note": "Holds for any grammar, not only for that of the crate."},
 {"property": "C192", "status": "partial", "theorems": ["Rdftk.C192_iff", "Rdftk.C192_fails", "Rdftk.C192_partial"], "note": "C192_iff says exactly which data sets are written as documents the grammar reads, and which as documents it refuses. The writer leaves out all statements (C45), so the graphs are empty."},
 {"property": "C193", "status": "partial", "theorems": ["Rdftk.C193_iff", "Rdftk.C193_fails", "Rdftk.C193_partial", "Rdftk.C193_lines_partial", "Rdftk.C193_space_iff"], "note": "C193_iff is exact for the statements whose labels, IRIs and literals are texts of the grammar. C193_space_iff: without a blank behind `<<` the grammar takes the brackets for a part of an IRI, since it lets `<` stand in IRIs."},
 {"property": "C194", "status": "partial", "theorems": ["Rdftk.C194_iff", "Rdftk.C194_fails", "Rdftk.C194_partial", "Rdftk.C194_graphs_partial"], "note": "C194_iff says exactly which statements TriG reads outside of braces; C194_graphs_partial is about those inside."},
 {"property": "C195", "status": "partial", "theorems": ["Rdftk.C195_iff", "Rdftk.C195_fails", "Rdftk.C195_partial", "Rdftk.C195_converse", "Rdftk.C195_lines_iff"], "note": "C195_iff and C195_lines_iff are exact for the statements whose labels, IRIs and literals are texts of the grammar. C195_converse: what N3 reads of them, Turtle and TriG read."},
 {"property": "C196", "status": "proved", "theorems": ["Rdftk.C196_iff", "Rdftk.C196_both"], "note": "C196_iff is exact over all texts TriG reads; C196_both joins it to C184_trig_iff."},
 {"property": "C197", "status": "partial", "theorems": ["Rdftk.C197_refused", "Rdftk.C197_fails", "Rdftk.C197_iff"], "note": "C197_refused holds for every continuation; C197_iff says that only the capital letters are read where a graph with an IRI follows."},
 {"property": "C198", "status": "partial", "theorems": ["Rdftk.C198_fails", "Rdftk.C198_fails_comment", "Rdftk.C198_iff", "Rdftk.C198_tree", "Rdftk.C198_written"], "note": "Fails: `(\"\"\"x\")` is an empty string and `x`, until a line goes on with three quotes; a comment without line end takes the second document. Holds behind N-Triples that ends with a line, for any text and all three languages, with the tree (C198_iff, C198_tree), and behind what the Turtle writer writes within the grammar (C198_written)."},
 {"property": "C199", "status": "partial", "theorems": ["Rdftk.C199_lines", "Rdftk.C199_fails", "Rdftk.C199_refused", "Rdftk.C199_fails_others", "Rdftk.C199_fails_prefix", "Rdftk.C199_gap"], "note": "Fails: N-Triples and N-Quads refuse every text with the mark (C199_lines); Turtle, TriG and N3 take it for a letter and refuse the document unless the word it begins is a prefix (C199_refused), and then the prefix is another one (C199_fails_prefix). White space and comments do no harm, trees included (C199_gap)."},
 {"property": "C200", "status": "partial", "theorems": ["Rdftk.C200_counts", "Rdftk.C200_lines", "Rdftk.C200_flat", "Rdftk.C200_linear", "Rdftk.C200_nested", "Rdftk.C200_read", "Rdftk.C200_graph", "Rdftk.C200_fails"], "note": "Holds for N-Triples and N-Quads with 41 and 42 calls (C200_lines). Fails for Turtle, TriG and N3 (C200_fails): opening brackets need nine calls each (C200_nested), also in documents that are read (C200_read). The depth is at most linear in the length, for every rule (C200_linear). What is counted are calls of the model's expressions, not bytes of the stack, and pest's limit on calls, which is off unless set, is not modelled. In a graph of TriG the statements are nested as well, since triplesBlock calls itself for the rest: five calls for each statement (C200_graph). Brackets, braces, quotes and paths are the only causes: texts without them need a fixed depth in Turtle, TriG and N3 (C200_flat)."},
 {"property": "C201", "status": "partial", "theorems": ["Rdftk.C201_open", "Rdftk.C201_nesting", "Rdftk.C201_nested", "Rdftk.C201_fails", "Rdftk.C201_literal"], "note": "The statement is false for every environment (C201_fails): each element within another one needs a call (C201_nested), whatever its name is, as long as the name makes an IRI. The number of open elements is always enough (C201_open), so the nesting of the document is (C201_nesting). Elements within an XML literal need none (C201_literal): the call that collects it counts them."},
 {"property": "C202", "status": "partial", "theorems": ["Rdftk.C202_iff", "Rdftk.C202_deeper", "Rdftk.C202_bound", "Rdftk.C202_flat", "Rdftk.C202_chain", "Rdftk.C202_fails"], "note": "The statement is false (C202_fails): a chain of n blank nodes needs n levels (C202_chain), and blank nodes are nested by default. A depth is enough exactly when no object has more levels (C202_iff), and with less the writer goes on deeper, it ends in no other way (C202_deeper). For graphs without endless chains the number of described blank nodes plus one, times the depth of collections plus one, is enough (C202_bound). With blank nodes that are not nested and no collections one level is enough (C202_flat)."},
 {"property": "C203", "status": "partial", "theorems": ["Rdftk.C203_iff", "Rdftk.C203_deeper", "Rdftk.C203_bound", "Rdftk.C203_flat", "Rdftk.C203_chain", "Rdftk.C203_fails"], "note": "The statement is false in the striped style, which nests (C203_fails): a chain of n statements that starts with an IRI needs n + 1 calls (C203_chain). A depth is enough exactly when statements about no IRI lead further (C203_iff), with less the writer goes on deeper (C203_deeper). One more than there are subjects is enough (C203_bound). In the flat style, the default, one call is enough for every graph (C203_flat)."},
 {"property": "C204", "status": "partial", "theorems": ["Rdftk.C204_reads", "Rdftk.C204_iff", "Rdftk.C204_renamed", "Rdftk.C204_fails"], "note": "The statement is false (C204_fails): the writer goes by the name that the graph has itself, so after a graph was renamed through graph_mut, or put into a HashMap under another key, it is read under its own name. What is read is given for all data sets (C204_reads), and the contents come back exactly when each key has the statements of the graphs with that name (C204_iff). A graph renamed in place is merged with the graph that had the name before, and nothing is left under the old one (C204_renamed)."},
 {"property": "C205", "status": "proved", "theorems": ["Rdftk.C205_lines", "Rdftk.C205_linear", "Rdftk.C205_cli", "Rdftk.C205_quads", "Rdftk.C205_dataset", "Rdftk.C205_sharp"], "note": "The bound is linear, unlike that of Turtle and nested RDF/XML, which is not even polynomial (C173, C174). Ten is the length of an escape of six digits (C205_sharp). Each time the document is read and written again the text of its literals can grow, since what is read is escaped once more (C150). How much the parser of URLs lengthens a text is a parameter. For data sets read from N-Quads the same is shown, whatever the number of their graphs (C205_dataset)."},
 {"property": "C206", "status": "proved", "theorems": ["Rdftk.C206_rooms", "Rdftk.C206_linear", "Rdftk.C206_cli"], "note": "C206_rooms bounds the text of any graph by the room for each of its statements; C206_linear turns that into 10 c times the length of the document, where c >= 10 bounds how much IRIs and language tags grow when parsed. The factor is not the smallest one."},
 {"property": "C207", "status": "partial", "theorems": ["Rdftk.C207_iff", "Rdftk.C207_partial", "Rdftk.C207_urls", "Rdftk.C207_strict", "Rdftk.C207_fails"], "note": "Fails for a subject such as urn:a\"b (written urn:a\\u0022b): the quote ends the label and the output is no DOT text. C207_partial holds whenever no IRI keeps a quote or a backslash, so in every strict environment (C207_strict). No condition on the literals is needed: they are escaped by their constructors and displayed in quotes, since the reader never makes a bare data type. C207_iff is exact: the drawing is right if and only if every label of an edge and every label of a resource can stand in quotes."},
 {"property": "C208", "status": "partial", "theorems": ["Rdftk.C208_dot", "Rdftk.C208_iff", "Rdftk.C208_partial", "Rdftk.C208_fails"], "note": "Fails for the literals \"1\" of type int and \"1\" of type long: the reader of RDF/JSON recognises the types, numbers are displayed without their type, and the display is the key of the node. From N-Triples this does not happen (C207), because that reader recognises no type. C208_iff is exact for every environment."},
 {"property": "C209", "status": "partial", "theorems": ["Rdftk.C209_items", "Rdftk.C209_iff", "Rdftk.C209_documents", "Rdftk.C209_partial", "Rdftk.C209_plain", "Rdftk.C209_sources", "Rdftk.C209_fails", "Rdftk.C209_formats"], "note": "C209_statement is refuted by C209_fails (a text and the same text in English have one diagram). C209_partial has the exact map between the graphs with equal predicates, C209_plain the full conclusion for literals without type and language, C209_sources any two source formats, C209_items any two graphs that the same items draw. C209_iff and C209_documents are exact: the text drawn for one document is a diagram of another if and only if the two differ only in names of blank nodes and types and languages of literals. C209_formats is for any two documents of N-Triples or RDF/XML."},
 {"property": "C210", "status": "partial", "theorems": ["Rdftk.C210_iff", "Rdftk.C210_partial", "Rdftk.C210_urls", "Rdftk.C210_strict", "Rdftk.C210_fails"], "note": "C210_statement is refuted by C210_fails (an opaque IRI with a quote). C210_iff is exact for every environment; C210_urls and C210_strict have the full conclusion for environments whose URLs have no quotes and backslashes. The tokenizer of the XML crate is a parameter."}
]}
