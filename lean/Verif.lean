import Verif.Props.PName
import Verif.Props.Iri
import Verif.Props.PrefixMap
import Verif.Props.PrefixText
import Verif.Props.Names
import Verif.Props.Literal
import Verif.Props.Node
import Verif.Props.Graph
import Verif.Props.DataSet
import Verif.Props.Expand
import Verif.Props.Resource
import Verif.Props.ResourceExact
import Verif.Props.NTriples
import Verif.Props.Json
import Verif.Props.IriEdit
import Verif.Props.Indenter
import Verif.Props.Turtle
import Verif.Props.TurtleIri
import Verif.Props.TurtleBases
import Verif.Props.NTAccept
import Verif.Props.NTExact
import Verif.Props.JsonExact
import Verif.Props.JsonMeaning
import Verif.Props.Trig
import Verif.Props.Dot
import Verif.Props.DotLabels
import Verif.Props.DotExact
import Verif.Model.Xml
import Verif.Spec.Xml
import Verif.Lemmas.Xml
import Verif.Lemmas.XmlBad
import Verif.Lemmas.XmlRead
import Verif.Props.Xml
import Verif.Spec.JsonText
import Verif.Lemmas.JsonAccept
import Verif.Props.JsonText
import Verif.Spec.NTMeaning
import Verif.Spec.ConvertXml
import Verif.Props.NTMeaning
import Verif.Model.Cli
import Verif.Model.Chrono
import Verif.Props.Cli
import Verif.Model.Serde
import Verif.Lemmas.Serde
import Verif.Props.Serde
import Verif.Spec.Show
import Verif.Spec.Shape
import Verif.Lemmas.Show
import Verif.Props.Show
import Verif.Props.ShowExact
import Verif.Model.Number
import Verif.Spec.Number
import Verif.Props.Number
import Verif.Model.Genid
import Verif.Props.Genid
import Verif.Model.DataTypeText
import Verif.Props.DataTypeText
import Verif.Model.Builder
import Verif.Spec.Builder
import Verif.Props.Builder
import Verif.Spec.XmlRead
import Verif.Lemmas.XmlLevels
import Verif.Props.XmlRead
import Verif.Spec.IriValid
import Verif.Props.IriValid
import Verif.Props.IriSplit
import Verif.Model.Indexed
import Verif.Spec.Indexed
import Verif.Lemmas.Indexed
import Verif.Props.Indexed
import Verif.Model.Skos
import Verif.Spec.Skos
import Verif.Lemmas.Flatten
import Verif.Lemmas.Skos
import Verif.Lemmas.SkosCalls
import Verif.Props.Skos
import Verif.Props.SkosDocument
import Verif.Props.XmlWrite
import Verif.Props.Rdfs
import Verif.Props.Csv
import Verif.Props.Sparql
import Verif.Props.SkosCalls
import Verif.Model.Formula
import Verif.Props.Formula
import Verif.Props.Exact
import Verif.Spec.TurtleNested
import Verif.Lemmas.TurtleNested
import Verif.Props.TurtleNested
import Verif.Props.TurtleStable
import Verif.Model.SkosDocument
import Verif.Spec.SkosDocument
import Verif.Lemmas.SkosDocument
import Verif.Lemmas.DocumentBlocks
import Verif.Props.DocumentTables
import Verif.Props.DocumentTree
import Verif.Props.DocumentLinks
import Verif.Props.DocumentSections
import Verif.Lemmas.XmlNested
import Verif.Lemmas.XmlUnique
import Verif.Props.XmlNested
import Verif.Props.NTJoin
import Verif.Props.NTQuads
import Verif.Model.Options
import Verif.Spec.Options
import Verif.Props.Options
import Verif.Props.TurtlePadding
import Verif.Model.SparqlQuery
import Verif.Spec.SparqlQuery
import Verif.Props.SparqlQuery
import Verif.Model.Error
import Verif.Spec.ErrorTrace
import Verif.Props.ErrorTrace
import Verif.Props.ReifyExact
import Verif.Lemmas.XmlFlat
import Verif.Props.XmlExact
import Verif.Lemmas.IndexedTally
import Verif.Props.SkosExact
import Verif.Props.Again
import Verif.Props.Chrono
import Verif.Props.Convert
import Verif.Props.ConvertTurtle
import Verif.Props.ConvertXml
import Verif.Props.ConvertMeaning
import Verif.Props.NTSays
import Verif.Props.ConvertJson
import Verif.Props.JsonNTriples
import Verif.Props.JsonJson
import Verif.Props.JsonXml
import Verif.Props.JsonTurtle
import Verif.Props.ErrorMessage
import Verif.Props.XmlNTriples
import Verif.Props.XmlJson
import Verif.Props.XmlXml
import Verif.Props.XmlTurtle
import Verif.Props.NQSays
import Verif.Props.Entail
import Verif.Props.EntailXml
import Verif.Props.ConvertSucceeds
import Verif.Props.ConvertAll
import Verif.Props.Hex
import Verif.Props.TurtleSize
import Verif.Props.XmlSize
import Verif.Props.EntailJson
import Verif.Props.TurtlePanic
import Verif.Props.TurtleLayout
import Verif.Props.Variants
import Verif.Props.Hash
import Verif.Props.XmlPanic
import Verif.Props.XmlReader
import Verif.Props.Grammar
import Verif.Props.GrammarTurtle
import Verif.Props.GrammarWrite
import Verif.Props.GrammarTokens
import Verif.Props.GrammarSpans
import Verif.Props.GrammarTrig
import Verif.Props.GrammarStar
import Verif.Props.GrammarStarN3
import Verif.Props.GrammarParts
import Verif.Props.GrammarBack
import Verif.Props.GrammarJoin
import Verif.Props.GrammarMark
import Verif.Props.GrammarDepth
import Verif.Props.XmlDepth
import Verif.Props.TurtleDepth
import Verif.Props.XmlWriteDepth
import Verif.Props.NqNames
import Verif.Props.NtSize
import Verif.Props.JsonSize
import Verif.Props.DotRead
import Verif.Props.DotJson
import Verif.Props.DotSame
import Verif.Props.DotXml
