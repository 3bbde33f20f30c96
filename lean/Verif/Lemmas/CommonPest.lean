import Verif.Lemmas.Peg

/-! The grammar `common.pest`: a certificate that all runs end. -/

namespace Rdftk

/-- The rules that may match the empty text. -/
def GRule.nullable : GRule → Bool
  | .n3Doc => true
  | .trigDoc => true
  | .turtleStarDoc => true
  | .nquadDoc => true
  | .ntripleDoc => true
  | .IRIREF_INNER => true
  | .LONG_SINGLE_QUOTE_INNER => true
  | .LONG_QUOTE_INNER => true
  | .QUOTE_INNER => true
  | .SINGLE_QUOTE_INNER => true
  | _ => false

/-- Rules call rules of lower rank before anything is read. -/
def GRule.rank : GRule → Nat
  | .n3Doc | .formulaContent => 12
  | .n3Statement | .n3PredicateObjectList => 11
  | .n3Triples | .n3ObjectList | .n3Verb => 10
  | .n3Subject | .n3Predicate | .n3Object | .trigDoc | .turtleStarDoc | .predicateObjectList => 9
  | .expression | .block | .triplesBlock | .statement | .verbObjectList => 8
  | .path | .triplesOrGraph | .triples | .objectList | .verb => 7
  | .pathItem | .labelOrSubject | .turtleSubject | .turtlePredicate | .turtleObject | .subjectX | .objectX => 6
  | .iri => 5
  | .nquadDoc | .ntripleDoc | .ntripleObject | .prefixedName | .PN_LOCAL_TAIL => 4
  | .turtleLiteral | .nquad | .ntriple | .ntripleLiteral | .BLANK_NODE_LABEL_TAIL | .PNAME_LN | .PN_PREFIX_TAIL | .PN_LOCAL_CHARS => 3
  | .turtleRdfLiteral | .ntripleSubject | .ntripleRdfLiteral | .IRIREF_INNER | .NumericLiteral | .LONG_SINGLE_QUOTE_INNER | 
  .LONG_QUOTE_INNER | .QUOTE_INNER | .SINGLE_QUOTE_INNER | .PNAME_NS | .PN_CHARS | .PN_LOCAL => 2
  | .n3Directive | .sparqlDirective | .quickVar | .triples2 | .directive | .turtleString | .ntriplePredicate | .ntripleString | 
  .IRIREF_CHAR | .blankNode | .Integer | .Decimal | .Double | .LONG_SINGLE_QUOTE_CHAR | .LONG_QUOTE_CHAR | .QUOTE_CHAR | 
  .SINGLE_QUOTE_CHAR | .PN_CHARS_U | .PN_PREFIX | .PLX | .WHITESPACE => 1
  | _ => 0

theorem commonGrammar_ends : commonGrammar.Ends GRule.nullable GRule.rank 13 where
  null := by intro i; cases i <;> decide +kernel
  below := by intro i; cases i <;> decide +kernel
  fine := by intro i; cases i <;> decide +kernel

end Rdftk
