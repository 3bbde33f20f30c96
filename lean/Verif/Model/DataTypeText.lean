import Verif.Model.Literal

/-! `Display` of data types (`rdftk_core/src/model/literal.rs` 251-285); names are as `rdftk_names` gives them. -/

namespace Rdftk

/-- `rdftk_names/src/xsd.rs` 6, `rdftk_names/src/lib.rs` 139 and 196-198. -/
def xsdQname (n : Str) : Str := str! "xsd:" ++ n
/-- As `xsdQname`, for `rdf.rs`. -/
def rdfQname (n : Str) : Str := str! "rdf:" ++ n

/-- `literal.rs` 251-285. -/
def DataType.display : DataType → Str
  | .iri => xsdQname (str! "anyURI")
  | .base64Binary => xsdQname (str! "base64Binary")
  | .boolean => xsdQname (str! "boolean")
  | .date => xsdQname (str! "date")
  | .dateTime => xsdQname (str! "dateTime")
  | .decimal => xsdQname (str! "decimal")
  | .double => xsdQname (str! "double")
  | .duration => xsdQname (str! "duration")
  | .float => xsdQname (str! "float")
  | .hexBinary => xsdQname (str! "hexBinary")
  | .qName => xsdQname (str! "QName")
  | .string => xsdQname (str! "string")
  | .time => xsdQname (str! "time")
  | .long => xsdQname (str! "long")
  | .int => xsdQname (str! "int")
  | .short => xsdQname (str! "short")
  | .byte => xsdQname (str! "byte")
  | .unsignedLong => xsdQname (str! "unsignedLong")
  | .unsignedInt => xsdQname (str! "unsignedInt")
  | .unsignedShort => xsdQname (str! "unsignedShort")
  | .unsignedByte => xsdQname (str! "unsignedByte")
  | .language => xsdQname (str! "language")
  | .name => xsdQname (str! "Name")
  | .xmlLiteral => rdfQname (str! "XMLLiteral")
  | .other i => i.text

end Rdftk
