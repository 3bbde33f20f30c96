import Verif.Model.Sparql

/-! Model of `rdftk_query/src/sparql/parser/{query,update}.rs`, as written.  The crate is not a member
of the workspace, and these parsers do not compile: `choice()` without branches is modelled as a parser
that fails, `()` as one that reads nothing, and `integer()`, which does not exist, is a parameter.  Outputs
are dropped, as in the code. -/

namespace Rdftk.Sparql

/-- `look_ahead`: nothing is used. -/
def lookAhead {α : Type} (p : P α) : P Unit := fun s => match p s with
  | .ok _ _ _ => .ok () s false
  | .fail u => .fail u
  | .panic => .panic

/-- Parsers one after the other, without outputs. -/
def both {α β : Type} (p : P α) (q : P β) : P Unit := andThen p fun _ => mapP (fun _ => ()) q

/-- `()`. -/
def nothing : P Unit := fun s => .ok () s false

/-- `choice()`. -/
def never : P Unit := fun _ => .fail false

/-- `query.rs` 139-145, `expression_as_var`. -/
def expressionAsVar : P Unit := nothing

/-- `query.rs` 147-153, `group_graph_pattern`. -/
def groupGraphPattern : P Unit := nothing

/-- `query.rs` 92-110, `select_clause`. -/
def selectClause (alnum : Char → Bool) : P Unit :=
  both (skip (keyword alnum (str! "select")) spaces) <|
  both (skip (optionalP (orElse (keyword alnum (str! "distinct")) (keyword alnum (str! "reduced")))) spaces) <|
  orElse
    (mapP (fun _ => ()) (many1 (orElse (mapP (fun _ => ()) variable') (both (char '(') (both expressionAsVar (char ')'))))))
    (mapP (fun _ => ()) (char '*'))

/-- `query.rs` 112-124, `dataset_clause`. -/
def datasetClause (alnum : Char → Bool) : P Unit :=
  both (skip (keyword alnum (str! "from")) spaces) <|
  both (skip (optionalP (keyword alnum (str! "named"))) spaces) <| skip iriRef spaces

/-- `query.rs` 126-137, `where_clause`. -/
def whereClause (alnum : Char → Bool) : P Unit :=
  both (optionalP (skip (keyword alnum (str! "where")) spaces)) (skip groupGraphPattern spaces)

/-- `query.rs` 170-178, `group_clause`. -/
def groupClause (alnum : Char → Bool) : P Unit := both (keyword alnum (str! "group")) (keyword alnum (str! "by"))

/-- `query.rs` 180-186, `having_clause`. -/
def havingClause (alnum : Char → Bool) : P Unit := keyword alnum (str! "having")

/-- `query.rs` 188-199, `order_clause`. -/
def orderClause (alnum : Char → Bool) : P Unit :=
  both (skip (keyword alnum (str! "order")) spaces) (skip (keyword alnum (str! "by")) spaces)

/-- `query.rs` 201-212, `limit_offset_clause`. -/
def limitOffsetClause (alnum : Char → Bool) (integer : P Unit) : P Unit :=
  orElse (both (skip (keyword alnum (str! "offset")) spaces) integer) (both (skip (keyword alnum (str! "limit")) spaces) integer)

/-- `query.rs` 155-168, `solution_modifier`. -/
def solutionModifier (alnum : Char → Bool) (integer : P Unit) : P Unit :=
  both (optionalP (groupClause alnum)) <| both (optionalP (havingClause alnum)) <|
  both (optionalP (orderClause alnum)) (optionalP (limitOffsetClause alnum integer))

/-- `query.rs` 69-82, `select_query`. -/
def selectQuery (alnum : Char → Bool) (integer : P Unit) : P Unit :=
  both (selectClause alnum) <| both (many (datasetClause alnum)) <| both (whereClause alnum) (solutionModifier alnum integer)

/-- `query.rs` 84-90, `construct_query`. -/
def constructQuery : P Unit := never

/-- `query.rs` 214-222, `values_clause`. -/
def valuesClause (alnum : Char → Bool) : P Unit := skip (keyword alnum (str! "offsetvalues")) spaces

/-- `query.rs` 40-56, `query`. -/
def query (alnum : Char → Bool) (integer : P Unit) : P Unit :=
  both (prologue alnum) <|
  both (orElse (both (lookAhead (keyword alnum (str! "select"))) (selectQuery alnum integer))
    (both (lookAhead (keyword alnum (str! "construct"))) constructQuery)) (valuesClause alnum)

/-- `update.rs` 51-57, `update_1`. -/
def update1 : P Unit := never

/-- `update.rs` 22-33, `update`; the recursion is bounded by a number, which is not reached, as `update_1`
fails. -/
def updateUpTo (alnum : Char → Bool) : Nat → P Unit
  | 0 => never
  | n + 1 => both (prologue alnum) (optionalP (both update1 (optionalP (both (char ';') (updateUpTo alnum n)))))

/-- `update`. -/
def update (alnum : Char → Bool) : P Unit := fun s => updateUpTo alnum (s.length + 1) s

/-- `update.rs` 59-67, `graph_ref`. -/
def graphRef (alnum : Char → Bool) : P Unit := both (skip (keyword alnum (str! "graph")) spaces) iriRef

/-- `update.rs` 69-81, `graph_ref_all`. -/
def graphRefAll (alnum : Char → Bool) : P Unit :=
  orElse (graphRef alnum) <| orElse (keyword alnum (str! "default")) <| orElse (keyword alnum (str! "named")) (keyword alnum (str! "all"))

end Rdftk.Sparql
