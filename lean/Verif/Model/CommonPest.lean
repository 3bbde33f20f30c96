import Verif.Model.Peg

/-!
The grammar `rdftk_io/src/common/common.pest`, rule by rule.  `e+` is `e ~ e*` and `e{n}` is `e` so many times, as `pest` has them.  The
built-in rules for ASCII are ranges.
-/

namespace Rdftk

/-- The names of the rules of `common.pest`. -/
inductive GRule where
  | n3Doc | n3Statement | n3Directive | sparqlDirective | n3Triples | n3PredicateObjectList | n3ObjectList | n3Verb | n3Subject
  | n3Predicate | n3Object | expression | path | pathItem | formula | formulaContent | quickVar | trigDoc | block | namedGraph
  | triplesOrGraph | triples2 | wrappedGraph | triplesBlock | labelOrSubject | turtleStarDoc | statement | directive | prefixID
  | base | sparqlBase | sparqlPrefix | triples | predicateObjectList | verbObjectList | objectList | verb | turtleSubject
  | turtlePredicate | turtleObject | tripleX | subjectX | objectX | turtleLiteral | turtleRdfLiteral | turtleString
  | blankNodePropertyList | collection | nquadDoc | nquad | ntripleDoc | ntriple | ntripleSubject | ntriplePredicate | ntripleObject
  | ntripleLiteral | ntripleRdfLiteral | ntripleString | iri | IRIREF | IRIREF_INNER | IRIREF_CHAR | blankNode | BLANK_NODE_LABEL
  | BLANK_NODE_LABEL_TAIL | ANON | LANGTAG | NumericLiteral | SIGN | Integer | Decimal | Double | EXPONENT | BooleanLiteral
  | END_OF_STATEMENT | STRING_LITERAL_LONG_SINGLE_QUOTE | LONG_SINGLE_QUOTE_INNER | LONG_SINGLE_QUOTE_CHAR
  | STRING_LITERAL_LONG_QUOTE | LONG_QUOTE_INNER | LONG_QUOTE_CHAR | STRING_LITERAL_QUOTE | QUOTE_INNER | QUOTE_CHAR
  | STRING_LITERAL_SINGLE_QUOTE | SINGLE_QUOTE_INNER | SINGLE_QUOTE_CHAR | UCHAR | ECHAR | QUICK_VAR_NAME | prefixedName | PNAME_NS
  | PNAME_LN | PN_CHARS_BASE | PN_CHARS_U | PN_CHARS | PN_PREFIX | PN_PREFIX_TAIL | PN_LOCAL | PN_LOCAL_TAIL | PN_LOCAL_CHARS | PLX
  | PERCENT | PN_LOCAL_ESC | newline | COMMENT | WHITESPACE
deriving DecidableEq, Repr

/-- `common.pest` 5-7, `n3Doc`. -/
def pest_n3Doc : Peg GRule :=
  .seq .soi (.seq (.star (.alt (.seq (.rule .n3Statement) (.rule .END_OF_STATEMENT)) (.rule .sparqlDirective))) .eoi)

/-- `common.pest` 9-11, `n3Statement`. -/
def pest_n3Statement : Peg GRule :=
  .alt (.rule .n3Directive) (.rule .n3Triples)

/-- `common.pest` 13-15, `n3Directive`. -/
def pest_n3Directive : Peg GRule :=
  .alt (.rule .prefixID) (.rule .base)

/-- `common.pest` 17-20, `sparqlDirective`. -/
def pest_sparqlDirective : Peg GRule :=
  .alt (.rule .sparqlBase) (.rule .sparqlPrefix)

/-- `common.pest` 22-24, `n3Triples`. -/
def pest_n3Triples : Peg GRule :=
  .seq (.rule .n3Subject) (.opt (.rule .n3PredicateObjectList))

/-- `common.pest` 26-28, `n3PredicateObjectList`. -/
def pest_n3PredicateObjectList : Peg GRule :=
  .seq (.rule .n3Verb) (.seq (.rule .n3ObjectList) (.star (.seq (.str (str! ";")) (.opt (.seq (.rule .n3Verb) (.rule .n3ObjectList))))))

/-- `common.pest` 30-32, `n3ObjectList`. -/
def pest_n3ObjectList : Peg GRule :=
  .seq (.rule .n3Object) (.star (.seq (.str (str! ",")) (.rule .n3Object)))

/-- `common.pest` 34-42, `n3Verb`. -/
def pest_n3Verb : Peg GRule :=
  .alt (.rule .n3Predicate) (.alt (.str (str! "a")) (.alt (.seq (.str (str! "has")) (.rule .expression)) (.alt (.seq (.str (str! "is"))
    (.seq (.rule .expression) (.str (str! "of")))) (.alt (.str (str! "=")) (.alt (.str (str! "<=")) (.str (str! "=>")))))))

/-- `common.pest` 44-46, `n3Subject`. -/
def pest_n3Subject : Peg GRule :=
  .rule .expression

/-- `common.pest` 48-50, `n3Predicate`. -/
def pest_n3Predicate : Peg GRule :=
  .alt (.rule .expression) (.seq (.str (str! "<-")) (.rule .expression))

/-- `common.pest` 52-54, `n3Object`. -/
def pest_n3Object : Peg GRule :=
  .rule .expression

/-- `common.pest` 56-58, `expression`. -/
def pest_expression : Peg GRule :=
  .rule .path

/-- `common.pest` 60-62, `path`. -/
def pest_path : Peg GRule :=
  .seq (.rule .pathItem) (.opt (.alt (.seq (.str (str! "!")) (.rule .path)) (.seq (.str (str! "^")) (.rule .path))))

/-- `common.pest` 64-72, `pathItem`. -/
def pest_pathItem : Peg GRule :=
  .alt (.rule .iri) (.alt (.rule .blankNode) (.alt (.rule .quickVar) (.alt (.rule .collection) (.alt (.rule .blankNodePropertyList) (.alt
    (.rule .turtleLiteral) (.rule .formula))))))

/-- `common.pest` 74-76, `formula`. -/
def pest_formula : Peg GRule :=
  .seq (.str (str! "{")) (.seq (.opt (.rule .formulaContent)) (.str (str! "}")))

/-- `common.pest` 78-81, `formulaContent`. -/
def pest_formulaContent : Peg GRule :=
  .alt (.seq (.rule .n3Statement) (.opt (.seq (.str (str! ".")) (.opt (.rule .formulaContent))))) (.seq (.alt (.rule .sparqlPrefix)
    (.rule .sparqlBase)) (.opt (.rule .formulaContent)))

/-- `common.pest` 85-87, `quickVar`. -/
def pest_quickVar : Peg GRule :=
  .rule .QUICK_VAR_NAME

/-- `common.pest` 93-95, `trigDoc`. -/
def pest_trigDoc : Peg GRule :=
  .seq .soi (.seq (.star (.alt (.rule .directive) (.rule .block))) .eoi)

/-- `common.pest` 97-102, `block`. -/
def pest_block : Peg GRule :=
  .alt (.rule .triplesOrGraph) (.alt (.rule .wrappedGraph) (.alt (.rule .triples2) (.rule .namedGraph)))

/-- `common.pest` 104-106, `namedGraph`. -/
def pest_namedGraph : Peg GRule :=
  .seq (.str (str! "GRAPH")) (.seq (.rule .labelOrSubject) (.rule .wrappedGraph))

/-- `common.pest` 108-110, `triplesOrGraph`. -/
def pest_triplesOrGraph : Peg GRule :=
  .seq (.rule .labelOrSubject) (.alt (.rule .wrappedGraph) (.seq (.rule .predicateObjectList) (.rule .END_OF_STATEMENT)))

/-- `common.pest` 112-115, `triples2`. -/
def pest_triples2 : Peg GRule :=
  .alt (.seq (.rule .blankNodePropertyList) (.seq (.opt (.rule .predicateObjectList)) (.rule .END_OF_STATEMENT))) (.seq (.rule
    .collection) (.seq (.rule .predicateObjectList) (.rule .END_OF_STATEMENT)))

/-- `common.pest` 117-119, `wrappedGraph`. -/
def pest_wrappedGraph : Peg GRule :=
  .seq (.str (str! "{")) (.seq (.opt (.rule .triplesBlock)) (.str (str! "}")))

/-- `common.pest` 121-123, `triplesBlock`. -/
def pest_triplesBlock : Peg GRule :=
  .seq (.rule .triples) (.opt (.seq (.rule .END_OF_STATEMENT) (.opt (.rule .triplesBlock))))

/-- `common.pest` 125-128, `labelOrSubject`. -/
def pest_labelOrSubject : Peg GRule :=
  .alt (.rule .iri) (.rule .blankNode)

/-- `common.pest` 134-136, `turtleStarDoc`. -/
def pest_turtleStarDoc : Peg GRule :=
  .seq .soi (.seq (.star (.rule .statement)) .eoi)

/-- `common.pest` 138-141, `statement`. -/
def pest_statement : Peg GRule :=
  .alt (.rule .directive) (.seq (.rule .triples) (.rule .END_OF_STATEMENT))

/-- `common.pest` 143-148, `directive`. -/
def pest_directive : Peg GRule :=
  .alt (.rule .prefixID) (.alt (.rule .base) (.alt (.rule .sparqlPrefix) (.rule .sparqlBase)))

/-- `common.pest` 150-152, `prefixID`. -/
def pest_prefixID : Peg GRule :=
  .seq (.str (str! "@prefix")) (.seq (.rule .PNAME_NS) (.seq (.rule .IRIREF) (.rule .END_OF_STATEMENT)))

/-- `common.pest` 154-156, `base`. -/
def pest_base : Peg GRule :=
  .seq (.str (str! "@base")) (.seq (.rule .IRIREF) (.rule .END_OF_STATEMENT))

/-- `common.pest` 158-160, `sparqlBase`. -/
def pest_sparqlBase : Peg GRule :=
  .seq (.istr (str! "BASE")) (.rule .IRIREF)

/-- `common.pest` 162-164, `sparqlPrefix`. -/
def pest_sparqlPrefix : Peg GRule :=
  .seq (.istr (str! "PREFIX")) (.seq (.rule .PNAME_NS) (.rule .IRIREF))

/-- `common.pest` 166-169, `triples`. -/
def pest_triples : Peg GRule :=
  .alt (.seq (.rule .turtleSubject) (.rule .predicateObjectList)) (.seq (.rule .blankNodePropertyList) (.opt (.rule
    .predicateObjectList)))

/-- `common.pest` 171-173, `predicateObjectList`. -/
def pest_predicateObjectList : Peg GRule :=
  .seq (.rule .verbObjectList) (.star (.seq (.str (str! ";")) (.opt (.rule .verbObjectList))))

/-- `common.pest` 175-177, `verbObjectList`. -/
def pest_verbObjectList : Peg GRule :=
  .seq (.rule .verb) (.rule .objectList)

/-- `common.pest` 179-181, `objectList`. -/
def pest_objectList : Peg GRule :=
  .seq (.rule .turtleObject) (.star (.seq (.str (str! ",")) (.rule .turtleObject)))

/-- `common.pest` 183-186, `verb`. -/
def pest_verb : Peg GRule :=
  .alt (.rule .turtlePredicate) (.str (str! "a"))

/-- `common.pest` 188-193, `turtleSubject`. -/
def pest_turtleSubject : Peg GRule :=
  .alt (.rule .iri) (.alt (.rule .blankNode) (.alt (.rule .collection) (.rule .tripleX)))

/-- `common.pest` 195-197, `turtlePredicate`. -/
def pest_turtlePredicate : Peg GRule :=
  .rule .iri

/-- `common.pest` 199-206, `turtleObject`. -/
def pest_turtleObject : Peg GRule :=
  .alt (.rule .iri) (.alt (.rule .blankNode) (.alt (.rule .turtleLiteral) (.alt (.rule .collection) (.alt (.rule .blankNodePropertyList)
    (.rule .tripleX)))))

/-- `common.pest` 208-210, `tripleX`. -/
def pest_tripleX : Peg GRule :=
  .seq (.str (str! "<<")) (.seq (.rule .subjectX) (.seq (.rule .turtlePredicate) (.seq (.rule .objectX) (.str (str! ">>")))))

/-- `common.pest` 212-216, `subjectX`. -/
def pest_subjectX : Peg GRule :=
  .alt (.rule .iri) (.alt (.rule .blankNode) (.rule .tripleX))

/-- `common.pest` 218-223, `objectX`. -/
def pest_objectX : Peg GRule :=
  .alt (.rule .iri) (.alt (.rule .blankNode) (.alt (.rule .turtleLiteral) (.rule .tripleX)))

/-- `common.pest` 225-229, `turtleLiteral`. -/
def pest_turtleLiteral : Peg GRule :=
  .alt (.rule .turtleRdfLiteral) (.alt (.rule .NumericLiteral) (.rule .BooleanLiteral))

/-- `common.pest` 232-234, `turtleRdfLiteral`. -/
def pest_turtleRdfLiteral : Peg GRule :=
  .seq (.rule .turtleString) (.opt (.alt (.rule .LANGTAG) (.seq (.str (str! "^^")) (.rule .iri))))

/-- `common.pest` 236-241, `turtleString`. -/
def pest_turtleString : Peg GRule :=
  .alt (.rule .STRING_LITERAL_LONG_SINGLE_QUOTE) (.alt (.rule .STRING_LITERAL_LONG_QUOTE) (.alt (.rule .STRING_LITERAL_QUOTE) (.rule
    .STRING_LITERAL_SINGLE_QUOTE)))

/-- `common.pest` 243-245, `blankNodePropertyList`. -/
def pest_blankNodePropertyList : Peg GRule :=
  .seq (.str (str! "[")) (.seq (.rule .predicateObjectList) (.str (str! "]")))

/-- `common.pest` 247-249, `collection`. -/
def pest_collection : Peg GRule :=
  .seq (.str (str! "(")) (.seq (.star (.rule .turtleObject)) (.str (str! ")")))

/-- `common.pest` 255-257, `nquadDoc`. -/
def pest_nquadDoc : Peg GRule :=
  .seq .soi (.seq (.star (.rule .nquad)) .eoi)

/-- `common.pest` 260-262, `nquad`. -/
def pest_nquad : Peg GRule :=
  .seq (.rule .ntripleSubject) (.seq (.rule .ntriplePredicate) (.seq (.rule .ntripleObject) (.seq (.opt (.rule .ntripleSubject)) (.rule
    .END_OF_STATEMENT))))

/-- `common.pest` 268-270, `ntripleDoc`. -/
def pest_ntripleDoc : Peg GRule :=
  .seq .soi (.seq (.star (.rule .ntriple)) .eoi)

/-- `common.pest` 272-274, `ntriple`. -/
def pest_ntriple : Peg GRule :=
  .seq (.rule .ntripleSubject) (.seq (.rule .ntriplePredicate) (.seq (.rule .ntripleObject) (.rule .END_OF_STATEMENT)))

/-- `common.pest` 276-279, `ntripleSubject`. -/
def pest_ntripleSubject : Peg GRule :=
  .alt (.rule .IRIREF) (.rule .blankNode)

/-- `common.pest` 281-283, `ntriplePredicate`. -/
def pest_ntriplePredicate : Peg GRule :=
  .rule .IRIREF

/-- `common.pest` 285-289, `ntripleObject`. -/
def pest_ntripleObject : Peg GRule :=
  .alt (.rule .IRIREF) (.alt (.rule .blankNode) (.rule .ntripleLiteral))

/-- `common.pest` 291-293, `ntripleLiteral`. -/
def pest_ntripleLiteral : Peg GRule :=
  .rule .ntripleRdfLiteral

/-- `common.pest` 295-297, `ntripleRdfLiteral`. -/
def pest_ntripleRdfLiteral : Peg GRule :=
  .seq (.rule .ntripleString) (.opt (.alt (.rule .LANGTAG) (.seq (.str (str! "^^")) (.rule .IRIREF))))

/-- `common.pest` 299-301, `ntripleString`. -/
def pest_ntripleString : Peg GRule :=
  .rule .STRING_LITERAL_QUOTE

/-- `common.pest` 307-310, `iri`. -/
def pest_iri : Peg GRule :=
  .alt (.rule .IRIREF) (.rule .prefixedName)

/-- `common.pest` 312-314, `IRIREF`. -/
def pest_IRIREF : Peg GRule :=
  .seq (.str (str! "<")) (.seq (.rule .IRIREF_INNER) (.str (str! ">")))

/-- `common.pest` 316-318, `IRIREF_INNER`. -/
def pest_IRIREF_INNER : Peg GRule :=
  .star (.rule .IRIREF_CHAR)

/-- `common.pest` 320-324, `IRIREF_CHAR`. -/
def pest_IRIREF_CHAR : Peg GRule :=
  .alt (.seq (.not (.alt (.str (str! ">")) (.alt (.range 0x0000 0x0020) (.alt (.str (str! "\"")) (.alt (.str (str! "{")) (.alt (.str
    (str! "}")) (.alt (.str (str! "|")) (.alt (.str (str! "^")) (.alt (.str (str! "`")) (.str (str! "\\"))))))))))) .any) (.rule .UCHAR)

/-- `common.pest` 330-333, `blankNode`. -/
def pest_blankNode : Peg GRule :=
  .alt (.rule .BLANK_NODE_LABEL) (.rule .ANON)

/-- `common.pest` 335-337, `BLANK_NODE_LABEL`. -/
def pest_BLANK_NODE_LABEL : Peg GRule :=
  .seq (.str (str! "_:")) (.seq (.alt (.rule .PN_CHARS_U) Peg.asciiDigit) (.star (.rule .BLANK_NODE_LABEL_TAIL)))

/-- `common.pest` 339-342, `BLANK_NODE_LABEL_TAIL`. -/
def pest_BLANK_NODE_LABEL_TAIL : Peg GRule :=
  .alt (.rule .PN_CHARS) (.seq (.look (.seq (.str (str! ".")) (.rule .PN_CHARS))) (.str (str! ".")))

/-- `common.pest` 344-346, `ANON`. -/
def pest_ANON : Peg GRule :=
  .seq (.str (str! "[")) (.str (str! "]"))

/-- `common.pest` 352-354, `LANGTAG`. -/
def pest_LANGTAG : Peg GRule :=
  .seq (.str (str! "@")) (.seq (.seq Peg.asciiAlpha (.star Peg.asciiAlpha)) (.star (.seq (.str (str! "-")) (.seq Peg.asciiAlphanumeric
    (.star Peg.asciiAlphanumeric)))))

/-- `common.pest` 360-362, `NumericLiteral`. -/
def pest_NumericLiteral : Peg GRule :=
  .alt (.rule .Double) (.alt (.rule .Decimal) (.rule .Integer))

/-- `common.pest` 364-366, `SIGN`. -/
def pest_SIGN : Peg GRule :=
  .alt (.str (str! "+")) (.str (str! "-"))

/-- `common.pest` 368-370, `Integer`. -/
def pest_Integer : Peg GRule :=
  .seq (.opt (.rule .SIGN)) (.seq Peg.asciiDigit (.star Peg.asciiDigit))

/-- `common.pest` 372-374, `Decimal`. -/
def pest_Decimal : Peg GRule :=
  .seq (.opt (.rule .SIGN)) (.seq (.star Peg.asciiDigit) (.seq (.str (str! ".")) (.seq Peg.asciiDigit (.star Peg.asciiDigit))))

/-- `common.pest` 376-379, `Double`. -/
def pest_Double : Peg GRule :=
  .seq (.opt (.rule .SIGN)) (.alt (.seq (.seq Peg.asciiDigit (.star Peg.asciiDigit)) (.seq (.str (str! ".")) (.seq (.star Peg.asciiDigit)
    (.rule .EXPONENT)))) (.alt (.seq (.str (str! ".")) (.seq (.seq Peg.asciiDigit (.star Peg.asciiDigit)) (.rule .EXPONENT))) (.seq (.seq
    Peg.asciiDigit (.star Peg.asciiDigit)) (.rule .EXPONENT))))

/-- `common.pest` 381-383, `EXPONENT`. -/
def pest_EXPONENT : Peg GRule :=
  .seq (.istr (str! "e")) (.seq (.opt (.rule .SIGN)) (.seq Peg.asciiDigit (.star Peg.asciiDigit)))

/-- `common.pest` 389-392, `BooleanLiteral`. -/
def pest_BooleanLiteral : Peg GRule :=
  .alt (.str (str! "true")) (.str (str! "false"))

/-- `common.pest` 398, `END_OF_STATEMENT`. -/
def pest_END_OF_STATEMENT : Peg GRule :=
  .str (str! ".")

/-- `common.pest` 404-406, `STRING_LITERAL_LONG_SINGLE_QUOTE`. -/
def pest_STRING_LITERAL_LONG_SINGLE_QUOTE : Peg GRule :=
  .seq (.str (str! "'''")) (.seq (.rule .LONG_SINGLE_QUOTE_INNER) (.str (str! "'''")))

/-- `common.pest` 408-410, `LONG_SINGLE_QUOTE_INNER`. -/
def pest_LONG_SINGLE_QUOTE_INNER : Peg GRule :=
  .star (.rule .LONG_SINGLE_QUOTE_CHAR)

/-- `common.pest` 412-416, `LONG_SINGLE_QUOTE_CHAR`. -/
def pest_LONG_SINGLE_QUOTE_CHAR : Peg GRule :=
  .alt (.seq (.not (.alt (.str (str! "'''")) (.alt (.str (str! "\\")) (.alt (.str (str! "\r")) (.str (str! "\n")))))) .any) (.alt (.rule
    .ECHAR) (.rule .UCHAR))

/-- `common.pest` 418-420, `STRING_LITERAL_LONG_QUOTE`. -/
def pest_STRING_LITERAL_LONG_QUOTE : Peg GRule :=
  .seq (.str (str! "\"\"\"")) (.seq (.rule .LONG_QUOTE_INNER) (.str (str! "\"\"\"")))

/-- `common.pest` 422-424, `LONG_QUOTE_INNER`. -/
def pest_LONG_QUOTE_INNER : Peg GRule :=
  .star (.rule .LONG_QUOTE_CHAR)

/-- `common.pest` 426-430, `LONG_QUOTE_CHAR`. -/
def pest_LONG_QUOTE_CHAR : Peg GRule :=
  .alt (.seq (.not (.alt (.str (str! "\"\"\"")) (.alt (.str (str! "\\")) (.alt (.str (str! "\r")) (.str (str! "\n")))))) .any) (.alt
    (.rule .UCHAR) (.rule .ECHAR))

/-- `common.pest` 432-434, `STRING_LITERAL_QUOTE`. -/
def pest_STRING_LITERAL_QUOTE : Peg GRule :=
  .seq (.str (str! "\"")) (.seq (.rule .QUOTE_INNER) (.str (str! "\"")))

/-- `common.pest` 436-438, `QUOTE_INNER`. -/
def pest_QUOTE_INNER : Peg GRule :=
  .star (.rule .QUOTE_CHAR)

/-- `common.pest` 440-444, `QUOTE_CHAR`. -/
def pest_QUOTE_CHAR : Peg GRule :=
  .alt (.seq (.not (.alt (.str (str! "\"")) (.alt (.str (str! "\\")) (.alt (.str (str! "\r")) (.str (str! "\n")))))) .any) (.alt (.rule
    .UCHAR) (.rule .ECHAR))

/-- `common.pest` 446-448, `STRING_LITERAL_SINGLE_QUOTE`. -/
def pest_STRING_LITERAL_SINGLE_QUOTE : Peg GRule :=
  .seq (.str (str! "'")) (.seq (.rule .SINGLE_QUOTE_INNER) (.str (str! "'")))

/-- `common.pest` 450-452, `SINGLE_QUOTE_INNER`. -/
def pest_SINGLE_QUOTE_INNER : Peg GRule :=
  .star (.rule .SINGLE_QUOTE_CHAR)

/-- `common.pest` 454-458, `SINGLE_QUOTE_CHAR`. -/
def pest_SINGLE_QUOTE_CHAR : Peg GRule :=
  .alt (.seq (.not (.alt (.str (str! "'")) (.alt (.str (str! "\\")) (.alt (.str (str! "\r")) (.str (str! "\n")))))) .any) (.alt (.rule
    .ECHAR) (.rule .UCHAR))

/-- `common.pest` 460-463, `UCHAR`. -/
def pest_UCHAR : Peg GRule :=
  .alt (.seq (.str (str! "\\U")) (.seq Peg.asciiHexDigit (.seq Peg.asciiHexDigit (.seq Peg.asciiHexDigit (.seq Peg.asciiHexDigit (.seq
    Peg.asciiHexDigit (.seq Peg.asciiHexDigit (.seq Peg.asciiHexDigit Peg.asciiHexDigit)))))))) (.seq (.str (str! "\\u")) (.seq
    Peg.asciiHexDigit (.seq Peg.asciiHexDigit (.seq Peg.asciiHexDigit Peg.asciiHexDigit))))

/-- `common.pest` 465-467, `ECHAR`. -/
def pest_ECHAR : Peg GRule :=
  .seq (.str (str! "\\")) (.alt (.str (str! "t")) (.alt (.str (str! "b")) (.alt (.str (str! "n")) (.alt (.str (str! "r")) (.alt (.str
    (str! "f")) (.alt (.str (str! "\"")) (.alt (.str (str! "'")) (.str (str! "\\")))))))))

/-- `common.pest` 474-476, `QUICK_VAR_NAME`. -/
def pest_QUICK_VAR_NAME : Peg GRule :=
  .seq (.str (str! "?")) (.seq (.rule .PN_CHARS_U) (.star (.rule .PN_CHARS)))

/-- `common.pest` 482-485, `prefixedName`. -/
def pest_prefixedName : Peg GRule :=
  .alt (.rule .PNAME_LN) (.rule .PNAME_NS)

/-- `common.pest` 487-489, `PNAME_NS`. -/
def pest_PNAME_NS : Peg GRule :=
  .seq (.opt (.rule .PN_PREFIX)) (.str (str! ":"))

/-- `common.pest` 491-493, `PNAME_LN`. -/
def pest_PNAME_LN : Peg GRule :=
  .seq (.rule .PNAME_NS) (.rule .PN_LOCAL)

/-- `common.pest` 495-509, `PN_CHARS_BASE`. -/
def pest_PN_CHARS_BASE : Peg GRule :=
  .alt Peg.asciiAlpha (.alt (.range 0x00C0 0x00D6) (.alt (.range 0x00D8 0x00F6) (.alt (.range 0x00F8 0x02FF) (.alt (.range 0x0370 0x037D)
    (.alt (.range 0x037F 0x1FFF) (.alt (.range 0x200C 0x200D) (.alt (.range 0x2070 0x218F) (.alt (.range 0x2C00 0x2FEF) (.alt (.range
    0x3001 0xD7FF) (.alt (.range 0xF900 0xFDCF) (.alt (.range 0xFDF0 0xFFFD) (.range 0x10000 0xEFFFF))))))))))))

/-- `common.pest` 511-514, `PN_CHARS_U`. -/
def pest_PN_CHARS_U : Peg GRule :=
  .alt (.rule .PN_CHARS_BASE) (.str (str! "_"))

/-- `common.pest` 516-523, `PN_CHARS`. -/
def pest_PN_CHARS : Peg GRule :=
  .alt (.rule .PN_CHARS_U) (.alt (.str (str! "-")) (.alt Peg.asciiDigit (.alt (.range 0x00B7 0x00B7) (.alt (.range 0x0300 0x036F) (.range
    0x203F 0x2040)))))

/-- `common.pest` 525-527, `PN_PREFIX`. -/
def pest_PN_PREFIX : Peg GRule :=
  .seq (.rule .PN_CHARS_BASE) (.star (.rule .PN_PREFIX_TAIL))

/-- `common.pest` 529-532, `PN_PREFIX_TAIL`. -/
def pest_PN_PREFIX_TAIL : Peg GRule :=
  .alt (.rule .PN_CHARS) (.seq (.look (.seq (.str (str! ".")) (.rule .PN_CHARS))) (.str (str! ".")))

/-- `common.pest` 534-536, `PN_LOCAL`. -/
def pest_PN_LOCAL : Peg GRule :=
  .seq (.alt (.rule .PN_CHARS_U) (.alt (.str (str! ":")) (.alt Peg.asciiDigit (.rule .PLX)))) (.star (.rule .PN_LOCAL_TAIL))

/-- `common.pest` 538-541, `PN_LOCAL_TAIL`. -/
def pest_PN_LOCAL_TAIL : Peg GRule :=
  .alt (.rule .PN_LOCAL_CHARS) (.seq (.look (.seq (.str (str! ".")) (.rule .PN_LOCAL_CHARS))) (.str (str! ".")))

/-- `common.pest` 543-547, `PN_LOCAL_CHARS`. -/
def pest_PN_LOCAL_CHARS : Peg GRule :=
  .alt (.rule .PN_CHARS) (.alt (.str (str! ":")) (.rule .PLX))

/-- `common.pest` 549-552, `PLX`. -/
def pest_PLX : Peg GRule :=
  .alt (.rule .PERCENT) (.rule .PN_LOCAL_ESC)

/-- `common.pest` 554-556, `PERCENT`. -/
def pest_PERCENT : Peg GRule :=
  .seq (.str (str! "%")) (.seq Peg.asciiHexDigit Peg.asciiHexDigit)

/-- `common.pest` 558-560, `PN_LOCAL_ESC`. -/
def pest_PN_LOCAL_ESC : Peg GRule :=
  .seq (.str (str! "\\")) (.alt (.str (str! "_")) (.alt (.str (str! "~")) (.alt (.str (str! ".")) (.alt (.str (str! "-")) (.alt (.str
    (str! "!")) (.alt (.str (str! "$")) (.alt (.str (str! "&")) (.alt (.str (str! "'''")) (.alt (.str (str! "(")) (.alt (.str (str! ")"))
    (.alt (.str (str! "*")) (.alt (.str (str! "+")) (.alt (.str (str! ",")) (.alt (.str (str! ";")) (.alt (.str (str! "=")) (.alt (.str
    (str! "/")) (.alt (.str (str! "?")) (.alt (.str (str! "#")) (.alt (.str (str! "@")) (.str (str! "%")))))))))))))))))))))

/-- `common.pest` 566, `newline`. -/
def pest_newline : Peg GRule :=
  .alt (.str (str! "\r")) (.str (str! "\n"))

/-- `common.pest` 568-570, `COMMENT`. -/
def pest_COMMENT : Peg GRule :=
  .seq (.str (str! "#")) (.star (.seq (.not (.rule .newline)) .any))

/-- `common.pest` 572-576, `WHITESPACE`. -/
def pest_WHITESPACE : Peg GRule :=
  .alt (.str (str! " ")) (.alt (.str (str! "\t")) (.rule .newline))

/-- The rules with their kinds. -/
def commonPest : GRule → PegKind × Peg GRule
  | .n3Doc => (.normal, pest_n3Doc)
  | .n3Statement => (.normal, pest_n3Statement)
  | .n3Directive => (.normal, pest_n3Directive)
  | .sparqlDirective => (.normal, pest_sparqlDirective)
  | .n3Triples => (.normal, pest_n3Triples)
  | .n3PredicateObjectList => (.normal, pest_n3PredicateObjectList)
  | .n3ObjectList => (.normal, pest_n3ObjectList)
  | .n3Verb => (.normal, pest_n3Verb)
  | .n3Subject => (.normal, pest_n3Subject)
  | .n3Predicate => (.normal, pest_n3Predicate)
  | .n3Object => (.normal, pest_n3Object)
  | .expression => (.normal, pest_expression)
  | .path => (.normal, pest_path)
  | .pathItem => (.normal, pest_pathItem)
  | .formula => (.normal, pest_formula)
  | .formulaContent => (.normal, pest_formulaContent)
  | .quickVar => (.normal, pest_quickVar)
  | .trigDoc => (.normal, pest_trigDoc)
  | .block => (.silent, pest_block)
  | .namedGraph => (.normal, pest_namedGraph)
  | .triplesOrGraph => (.normal, pest_triplesOrGraph)
  | .triples2 => (.normal, pest_triples2)
  | .wrappedGraph => (.normal, pest_wrappedGraph)
  | .triplesBlock => (.normal, pest_triplesBlock)
  | .labelOrSubject => (.normal, pest_labelOrSubject)
  | .turtleStarDoc => (.normal, pest_turtleStarDoc)
  | .statement => (.normal, pest_statement)
  | .directive => (.normal, pest_directive)
  | .prefixID => (.normal, pest_prefixID)
  | .base => (.normal, pest_base)
  | .sparqlBase => (.normal, pest_sparqlBase)
  | .sparqlPrefix => (.normal, pest_sparqlPrefix)
  | .triples => (.normal, pest_triples)
  | .predicateObjectList => (.normal, pest_predicateObjectList)
  | .verbObjectList => (.normal, pest_verbObjectList)
  | .objectList => (.normal, pest_objectList)
  | .verb => (.normal, pest_verb)
  | .turtleSubject => (.normal, pest_turtleSubject)
  | .turtlePredicate => (.normal, pest_turtlePredicate)
  | .turtleObject => (.normal, pest_turtleObject)
  | .tripleX => (.normal, pest_tripleX)
  | .subjectX => (.normal, pest_subjectX)
  | .objectX => (.normal, pest_objectX)
  | .turtleLiteral => (.normal, pest_turtleLiteral)
  | .turtleRdfLiteral => (.normal, pest_turtleRdfLiteral)
  | .turtleString => (.normal, pest_turtleString)
  | .blankNodePropertyList => (.normal, pest_blankNodePropertyList)
  | .collection => (.normal, pest_collection)
  | .nquadDoc => (.normal, pest_nquadDoc)
  | .nquad => (.normal, pest_nquad)
  | .ntripleDoc => (.normal, pest_ntripleDoc)
  | .ntriple => (.normal, pest_ntriple)
  | .ntripleSubject => (.normal, pest_ntripleSubject)
  | .ntriplePredicate => (.normal, pest_ntriplePredicate)
  | .ntripleObject => (.normal, pest_ntripleObject)
  | .ntripleLiteral => (.normal, pest_ntripleLiteral)
  | .ntripleRdfLiteral => (.normal, pest_ntripleRdfLiteral)
  | .ntripleString => (.normal, pest_ntripleString)
  | .iri => (.normal, pest_iri)
  | .IRIREF => (.compound, pest_IRIREF)
  | .IRIREF_INNER => (.atomic, pest_IRIREF_INNER)
  | .IRIREF_CHAR => (.normal, pest_IRIREF_CHAR)
  | .blankNode => (.normal, pest_blankNode)
  | .BLANK_NODE_LABEL => (.atomic, pest_BLANK_NODE_LABEL)
  | .BLANK_NODE_LABEL_TAIL => (.normal, pest_BLANK_NODE_LABEL_TAIL)
  | .ANON => (.normal, pest_ANON)
  | .LANGTAG => (.atomic, pest_LANGTAG)
  | .NumericLiteral => (.normal, pest_NumericLiteral)
  | .SIGN => (.normal, pest_SIGN)
  | .Integer => (.atomic, pest_Integer)
  | .Decimal => (.atomic, pest_Decimal)
  | .Double => (.atomic, pest_Double)
  | .EXPONENT => (.normal, pest_EXPONENT)
  | .BooleanLiteral => (.normal, pest_BooleanLiteral)
  | .END_OF_STATEMENT => (.normal, pest_END_OF_STATEMENT)
  | .STRING_LITERAL_LONG_SINGLE_QUOTE => (.compound, pest_STRING_LITERAL_LONG_SINGLE_QUOTE)
  | .LONG_SINGLE_QUOTE_INNER => (.atomic, pest_LONG_SINGLE_QUOTE_INNER)
  | .LONG_SINGLE_QUOTE_CHAR => (.normal, pest_LONG_SINGLE_QUOTE_CHAR)
  | .STRING_LITERAL_LONG_QUOTE => (.compound, pest_STRING_LITERAL_LONG_QUOTE)
  | .LONG_QUOTE_INNER => (.atomic, pest_LONG_QUOTE_INNER)
  | .LONG_QUOTE_CHAR => (.normal, pest_LONG_QUOTE_CHAR)
  | .STRING_LITERAL_QUOTE => (.compound, pest_STRING_LITERAL_QUOTE)
  | .QUOTE_INNER => (.atomic, pest_QUOTE_INNER)
  | .QUOTE_CHAR => (.normal, pest_QUOTE_CHAR)
  | .STRING_LITERAL_SINGLE_QUOTE => (.compound, pest_STRING_LITERAL_SINGLE_QUOTE)
  | .SINGLE_QUOTE_INNER => (.atomic, pest_SINGLE_QUOTE_INNER)
  | .SINGLE_QUOTE_CHAR => (.normal, pest_SINGLE_QUOTE_CHAR)
  | .UCHAR => (.atomic, pest_UCHAR)
  | .ECHAR => (.atomic, pest_ECHAR)
  | .QUICK_VAR_NAME => (.atomic, pest_QUICK_VAR_NAME)
  | .prefixedName => (.normal, pest_prefixedName)
  | .PNAME_NS => (.normal, pest_PNAME_NS)
  | .PNAME_LN => (.normal, pest_PNAME_LN)
  | .PN_CHARS_BASE => (.normal, pest_PN_CHARS_BASE)
  | .PN_CHARS_U => (.normal, pest_PN_CHARS_U)
  | .PN_CHARS => (.normal, pest_PN_CHARS)
  | .PN_PREFIX => (.atomic, pest_PN_PREFIX)
  | .PN_PREFIX_TAIL => (.normal, pest_PN_PREFIX_TAIL)
  | .PN_LOCAL => (.atomic, pest_PN_LOCAL)
  | .PN_LOCAL_TAIL => (.normal, pest_PN_LOCAL_TAIL)
  | .PN_LOCAL_CHARS => (.normal, pest_PN_LOCAL_CHARS)
  | .PLX => (.normal, pest_PLX)
  | .PERCENT => (.normal, pest_PERCENT)
  | .PN_LOCAL_ESC => (.normal, pest_PN_LOCAL_ESC)
  | .newline => (.silent, pest_newline)
  | .COMMENT => (.silent, pest_COMMENT)
  | .WHITESPACE => (.silent, pest_WHITESPACE)

/-- The grammar of `CommonParser`, `parser/mod.rs` 130-132. -/
def commonGrammar : PegGrammar GRule := ⟨commonPest, .WHITESPACE, .COMMENT⟩

end Rdftk
