import Verif.Model.Node

/-! Model of `rdftk_core/src/model/formulae.rs`: N3 formulae.  The module is not compiled at present (it is not declared in
`model/mod.rs`, and `Variable` has no order for the `BTreeSet`); it is modelled as written, with a set as the list of its
members in the order in which they are visited. -/

namespace Rdftk

/-- `formulae.rs` 22-32, `Quantification` and `Variable`. -/
structure N3Variable where
  universal : Bool
  id : Iri
deriving DecidableEq

/-- `formulae.rs` 34-38, `Formula`. -/
structure Formula where
  variables : List N3Variable
  statements : List Stmt

namespace N3Variable

/-- `formulae.rs` 61-66, 75-77, `universal` and `for_all`. -/
def forAll (i : Iri) : N3Variable := ⟨true, i⟩
/-- `formulae.rs` 68-73, 79-81, `existential` and `for_some`. -/
def forSome (i : Iri) : N3Variable := ⟨false, i⟩
/-- `formulae.rs` 83-85. -/
def isUniversal (v : N3Variable) : Bool := v.universal
/-- `formulae.rs` 87-89. -/
def isExistential (v : N3Variable) : Bool := !v.universal

/-- `formulae.rs` 46-58, `Display`. -/
def display (sty : IriStyle) (v : N3Variable) : Str :=
  (if v.universal then str! "@forAll" else str! "@forSome") ++ str! " <" ++ v.id.fmt sty ++ str! "> ."

end N3Variable

namespace Formula

/-- `vars.join("\n")` and `writeln!`, if there are any. -/
def variableLines (sty : IriStyle) (vs : List N3Variable) : Str :=
  if vs.isEmpty then [] else ['\n'].intercalate (vs.map (·.display sty)) ++ ['\n']

/-- `formulae.rs` 94-136, `Display`. -/
def display (sty : IriStyle) (f : Formula) : Str :=
  if !f.statements.isEmpty then
    variableLines sty (f.variables.filter (·.universal)) ++ variableLines sty (f.variables.filter (!·.universal)) ++
      str! "{\n" ++ f.statements.flatMap fun st => st.display sty ++ str! " .\n"
  else str! "{}"

/-- `formulae.rs` 139-141. -/
def len (f : Formula) : Nat := f.statements.length
/-- `formulae.rs` 143-145. -/
def isEmpty (f : Formula) : Bool := f.statements.isEmpty

end Formula

end Rdftk
