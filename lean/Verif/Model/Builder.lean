import Verif.Model.Resource

/-! The calls of the resource builder and of the predicate builder
(`rdftk_core/src/model/resource.rs` 155-442, 477-620).

Simplification: `LanguageTag::from_str` is a parameter; where the code unwraps its result the call is a panic. -/

namespace Rdftk

/-- `resource.rs` 158-160, `anonymous`, for the label that is generated. -/
def Resource.anonymous (b : Str) : Resource := .new (.blank b)
/-- `resource.rs` 165-167, `semi_anonymous`. -/
def Resource.semiAnonymous (b : Str) : Resource := .new (.blank b)
/-- `resource.rs` 172-174, `individual`. -/
def Resource.individual (i : Iri) : Resource := .new (.res i)

namespace Resource

/-- `resource.rs` 226-228, `literal`. -/
def literal (p : Iri) (l : Literal) (r : Resource) : Resource := r.insert p (.lit l)
/-- `resource.rs` 212-214, `property`. -/
def property (p : Iri) (l : Literal) (r : Resource) : Resource := r.literal p l
/-- `resource.rs` 219-221, `value_of`. -/
def valueOf (p : Iri) (l : Literal) (r : Resource) : Resource := r.literal p l
/-- `resource.rs` 233-236, `literal_str`. -/
def literalStr (pr : Char → Bool) (p : Iri) (s : Str) (r : Resource) : Resource := r.insert p (.lit (.plain pr s))
/-- `resource.rs` 241-249, `literal_typed_str`. -/
def literalTypedStr (pr : Char → Bool) (p : Iri) (s : Str) (t : DataType) (r : Resource) : Resource :=
  r.insert p (.lit (.withDataType pr s t))
/-- `resource.rs` 254-262, `literal_language_str`. -/
def literalLanguageStr (pr : Char → Bool) (p : Iri) (s lang : Str) (r : Resource) : Resource :=
  r.insert p (.lit (.withLanguage pr s lang))
/-- `resource.rs` 267-275, `literal_language_str_str`. -/
def literalLanguageStrStr (pr : Char → Bool) (tag : Str → Option Str) (p : Iri) (s lang : Str) (r : Resource) :
    Outcome Resource :=
  match tag lang with
  | none => .panic
  | some t => .ok (r.insert p (.lit (.withLanguage pr s t)))
/-- `resource.rs` 282-290, `property_alternatives`. -/
def propertyAlternatives (p : Iri) (ls : List Literal) (r : Resource) : Resource := r.insert p (.lits .alt ls)
/-- `resource.rs` 296-304, `property_bag`. -/
def propertyBag (p : Iri) (ls : List Literal) (r : Resource) : Resource := r.insert p (.lits .bag ls)
/-- `resource.rs` 310-318, `property_sequence`. -/
def propertySequence (p : Iri) (ls : List Literal) (r : Resource) : Resource := r.insert p (.lits .seq ls)
/-- `resource.rs` 324-337, `property_container`. -/
def propertyContainer (p : Iri) (ls : List Literal) (k : Iri) (r : Resource) : Resource := r.insert p (.lits (.other k) ls)
/-- `resource.rs` 344-349, `resource_blank_named`. -/
def resourceBlankNamed (p : Iri) (b : Str) (r : Resource) : Resource := r.insert p (.res (.semiAnonymous b))
/-- `resource.rs` 354-359, `resource_named`. -/
def resourceNamed (p : Iri) (i : Iri) (r : Resource) : Resource := r.insert p (.res (.individual i))
/-- `resource.rs` 364-366, `resource`. -/
def resource (p : Iri) (x : Resource) (r : Resource) : Resource := r.insert p (.res x)
/-- `resource.rs` 373-381, `resource_alternatives`. -/
def resourceAlternatives (p : Iri) (xs : List Resource) (r : Resource) : Resource := r.insert p (.ress .alt xs)
/-- `resource.rs` 387-395, `resource_bag`. -/
def resourceBag (p : Iri) (xs : List Resource) (r : Resource) : Resource := r.insert p (.ress .bag xs)
/-- `resource.rs` 401-409, `resource_sequence`. -/
def resourceSequence (p : Iri) (xs : List Resource) (r : Resource) : Resource := r.insert p (.ress .seq xs)
/-- `resource.rs` 415-428, `resource_container`. -/
def resourceContainer (p : Iri) (xs : List Resource) (k : Iri) (r : Resource) : Resource := r.insert p (.ress (.other k) xs)

end Resource

/-- The calls of the builder. -/
inductive Call where
  | literal (p : Iri) (l : Literal)
  | property (p : Iri) (l : Literal)
  | valueOf (p : Iri) (l : Literal)
  | literalStr (p : Iri) (s : Str)
  | literalTypedStr (p : Iri) (s : Str) (t : DataType)
  | literalLanguageStr (p : Iri) (s lang : Str)
  | literalLanguageStrStr (p : Iri) (s lang : Str)
  | propertyAlternatives (p : Iri) (ls : List Literal)
  | propertyBag (p : Iri) (ls : List Literal)
  | propertySequence (p : Iri) (ls : List Literal)
  | propertyContainer (p : Iri) (ls : List Literal) (k : Iri)
  | resourceBlankNamed (p : Iri) (b : Str)
  | resourceNamed (p : Iri) (i : Iri)
  | resource (p : Iri) (x : Resource)
  | resourceAlternatives (p : Iri) (xs : List Resource)
  | resourceBag (p : Iri) (xs : List Resource)
  | resourceSequence (p : Iri) (xs : List Resource)
  | resourceContainer (p : Iri) (xs : List Resource) (k : Iri)
  | instanceOf (i : Iri)
  | predicate (po : PredObjs)

/-- One call. -/
def Call.run (pr : Char → Bool) (tag : Str → Option Str) (r : Resource) : Call → Outcome Resource
  | .literal p l => .ok (r.literal p l)
  | .property p l => .ok (r.property p l)
  | .valueOf p l => .ok (r.valueOf p l)
  | .literalStr p s => .ok (r.literalStr pr p s)
  | .literalTypedStr p s t => .ok (r.literalTypedStr pr p s t)
  | .literalLanguageStr p s lang => .ok (r.literalLanguageStr pr p s lang)
  | .literalLanguageStrStr p s lang => r.literalLanguageStrStr pr tag p s lang
  | .propertyAlternatives p ls => .ok (r.propertyAlternatives p ls)
  | .propertyBag p ls => .ok (r.propertyBag p ls)
  | .propertySequence p ls => .ok (r.propertySequence p ls)
  | .propertyContainer p ls k => .ok (r.propertyContainer p ls k)
  | .resourceBlankNamed p b => .ok (r.resourceBlankNamed p b)
  | .resourceNamed p i => .ok (r.resourceNamed p i)
  | .resource p x => .ok (Resource.resource p x r)
  | .resourceAlternatives p xs => .ok (r.resourceAlternatives p xs)
  | .resourceBag p xs => .ok (r.resourceBag p xs)
  | .resourceSequence p xs => .ok (r.resourceSequence p xs)
  | .resourceContainer p xs k => .ok (r.resourceContainer p xs k)
  | .instanceOf i => .ok (r.instanceOf i)
  | .predicate po => .ok (r.predicate po)

/-- Calls one after the other. -/
def runCalls (pr : Char → Bool) (tag : Str → Option Str) (r : Resource) : List Call → Outcome Resource
  | [] => .ok r
  | c :: cs =>
    match c.run pr tag r with
    | .panic => .panic
    | .ok r' => runCalls pr tag r' cs

/-- The calls of the builder of a `Predicate`. -/
inductive PCall where
  | property (l : Literal)
  | propertyAlternatives (ls : List Literal)
  | propertyBag (ls : List Literal)
  | propertySequence (ls : List Literal)
  | propertyContainer (ls : List Literal) (k : Iri)
  | resourceBlankNamed (b : Str)
  | resourceNamed (i : Iri)
  | resource (x : Resource)
  | resourceAlternatives (xs : List Resource)
  | resourceBag (xs : List Resource)
  | resourceSequence (xs : List Resource)
  | resourceContainer (xs : List Resource) (k : Iri)

/-- `resource.rs` 477-482, `Predicate::new`. -/
def PredObjs.new (p : Iri) : PredObjs := .mk p []

/-- `Vec::push` to `objects`. -/
def PredObjs.push (o : RObj) : PredObjs → PredObjs
  | .mk p os => .mk p (os ++ [o])

/-- `resource.rs` 489-620. -/
def PCall.run (po : PredObjs) : PCall → PredObjs
  | .property l => po.push (.lit l)
  | .propertyAlternatives ls => po.push (.lits .alt ls)
  | .propertyBag ls => po.push (.lits .bag ls)
  | .propertySequence ls => po.push (.lits .seq ls)
  | .propertyContainer ls k => po.push (.lits (.other k) ls)
  | .resourceBlankNamed b => po.push (.res (.semiAnonymous b))
  | .resourceNamed i => po.push (.res (.individual i))
  | .resource x => po.push (.res x)
  | .resourceAlternatives xs => po.push (.ress .alt xs)
  | .resourceBag xs => po.push (.ress .bag xs)
  | .resourceSequence xs => po.push (.ress .seq xs)
  | .resourceContainer xs k => po.push (.ress (.other k) xs)

end Rdftk
