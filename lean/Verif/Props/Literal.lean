import Verif.Lemmas.Literal
import Verif.Lemmas.Str
import Verif.Spec.Duration

/-! Properties C17-C23, C58, C59: literals. -/

namespace Rdftk

open Spec

/-! ### C17 -/

/-- C17: removing the escapes gives the string back, whatever characters the standard
library takes for printable. -/
theorem C17_reversible (pr : Char → Bool) (s : Str) :
    unescape .text (escapeString pr s) = some s := unescape_escapeString pr s

/-- C17: different strings have different escaped forms. -/
theorem C17_injective (pr : Char → Bool) (s t : Str) (h : escapeString pr s = escapeString pr t) :
    s = t := by
  have h1 := C17_reversible pr s
  rw [h, C17_reversible pr t] at h1
  exact (Option.some.inj h1).symm

/-- C17: no unescaped quote, no dangling backslash, no line break, tab or NUL. -/
theorem C17_safe (pr : Char → Bool) (s : Str) :
    noBareQuote false (escapeString pr s) = true ∧
    ∀ x ∈ escapeString pr s, x ≠ '\n' ∧ x ≠ '\r' ∧ x ≠ '\t' ∧ x ≠ '\x00' := by
  refine ⟨noBareQuote_escapeString pr s, ?_⟩
  intro x hx
  simp only [escapeString, List.mem_flatMap] at hx
  obtain ⟨c, _, hc⟩ := hx
  refine ⟨?_, ?_, ?_, ?_⟩ <;> rintro rfl <;> exact escapeChar_ne (by simp) hc

/-- C17: exactly the strings of printable characters without quote and backslash are
unchanged. -/
theorem C17_unchanged (pr : Char → Bool) (hc : ∀ c : Char, c.toNat < 0x20 → pr c = false) (s : Str) :
    escapeString pr s = s ↔ ∀ c ∈ s, pr c = true ∧ c ≠ '"' ∧ c ≠ '\\' := by
  rw [escapeString_id_iff]
  constructor
  · intro h c hm
    have := h c hm
    refine ⟨?_, ?_, ?_⟩
    · cases hp : pr c with
      | true => rfl
      | false =>
        exfalso; revert this
        unfold escapeChar
        simp only [hp]
        repeat' split
        all_goals first | (simp; done) | contradiction
    · rintro rfl; revert this; simp [escapeChar]
    · rintro rfl; revert this; simp [escapeChar]
  · intro h c hm
    obtain ⟨h1, h2, h3⟩ := h c hm
    refine escapeChar_id h1 ?_ h2 h3
    by_cases hl : c.toNat < 0x20
    · rw [hc c hl] at h1; cases h1
    · omega

example : escapeString (fun c => 0x20 ≤ c.toNat) (str! "a\"b\n") = str! "a\\\"b\\n" := by decide

/-! ### C18 -/

/-- C18, the full statement. -/
def C18_statement : Prop :=
  ∀ (pr : Char → Bool) (s : Str), AsciiPrintable pr →
    (∀ t, (Literal.withDataType pr s t).lexicalForm = s) ∧
    (∀ lang, (Literal.withLanguage pr s lang).lexicalForm = s) ∧
    (Literal.plain pr s).lexicalForm = s ∧
    (Literal.plain pr s).eqStr s = true ∧ (Literal.ofStr pr s).eqStr s = true

/-- C18, what holds: exactly for the strings that have nothing to escape the literal keeps
its text and compares equal to it. -/
theorem C18_keeps_text_partial (pr : Char → Bool) (hc : ∀ c : Char, c.toNat < 0x20 → pr c = false)
    (s : Str) (t : DataType) (lang : Str) :
    ((Literal.withDataType pr s t).lexicalForm = s ↔ ∀ c ∈ s, pr c = true ∧ c ≠ '"' ∧ c ≠ '\\') ∧
    ((Literal.withLanguage pr s lang).lexicalForm = s ↔ ∀ c ∈ s, pr c = true ∧ c ≠ '"' ∧ c ≠ '\\') ∧
    ((Literal.plain pr s).eqStr s = true ↔ ∀ c ∈ s, pr c = true ∧ c ≠ '"' ∧ c ≠ '\\') ∧
    ((Literal.ofStr pr s).eqStr s = true ↔ ∀ c ∈ s, pr c = true ∧ c ≠ '"' ∧ c ≠ '\\') := by
  have h := C17_unchanged pr hc s
  refine ⟨h, h, ?_, ?_⟩
  · simpa [Literal.plain, Literal.eqStr] using h
  · simpa [Literal.ofStr, Literal.withDataType, Literal.eqStr] using h

/-- C18: nothing is lost, the string can be recovered from the lexical form, and the data
type and language are kept. -/
theorem C18_recoverable (pr : Char → Bool) (s : Str) (t : DataType) (i : Iri) (lang : Str) :
    unescape .text (Literal.plain pr s).lexicalForm = some s ∧
    unescape .text (Literal.withDataType pr s t).lexicalForm = some s ∧
    unescape .text (Literal.withDataTypeIri pr s i).lexicalForm = some s ∧
    unescape .text (Literal.withLanguage pr s lang).lexicalForm = some s ∧
    (Literal.plain pr s).dataType = none ∧ (Literal.plain pr s).language = none ∧
    (Literal.withDataType pr s t).dataType = some t ∧ (Literal.withDataType pr s t).language = none ∧
    (Literal.withDataTypeIri pr s i).dataType.map DataType.asIri = some i ∧
    (Literal.withLanguage pr s lang).language = some lang ∧
    (Literal.withLanguage pr s lang).dataType = none :=
  ⟨unescape_escapeString pr s, unescape_escapeString pr s, unescape_escapeString pr s,
    unescape_escapeString pr s, rfl, rfl, rfl, rfl, rfl, rfl, rfl⟩

/-- C18 fails for a string with a quote. -/
theorem C18_fails : ¬ C18_statement := by
  intro h
  have := (h (fun c => 0x20 ≤ c.toNat) (str! "\"") (by intro c h1 _; simpa using h1)).2.2.1
  revert this; decide

/-! ### C19 -/

/-- C19, integers: the literal of a value is equal to a value of the same type exactly when
it is that value, and to no value of another type. -/
theorem C19_int (pr : Char → Bool) (hp : AsciiPrintable pr) (k k' : IntKind) (v w : Int) :
    (Literal.ofInt pr k v).eqInt k' w = true ↔ k = k' ∧ v = w := by
  simp only [Literal.ofInt, Literal.withDataType, Literal.eqInt, escape_ascii hp (intText_ascii v),
    Bool.and_eq_true, beq_iff_eq, Option.some.injEq]
  constructor
  · rintro ⟨h1, h2⟩
    refine ⟨?_, intText_inj h1⟩
    cases k <;> cases k' <;> first | rfl | (cases h2; done)
  · rintro ⟨rfl, rfl⟩; simp

/-- C19, booleans. -/
theorem C19_bool (pr : Char → Bool) (hp : AsciiPrintable pr) (a b : Bool) :
    (Literal.ofBool pr a).eqBool b = true ↔ a = b := by
  simp only [Literal.ofBool, Literal.withDataType, Literal.eqBool, escape_ascii hp (boolText_ascii a)]
  cases a <;> cases b <;> decide

/-- C19: the literals of the truth values have the texts of XML Schema and its type, and equal just these values. -/
theorem C19_bool_text (pr : Char → Bool) (hp : AsciiPrintable pr) (b : Bool) (l : Literal) :
    (Literal.ofBool pr true).lexicalForm = str! "true" ∧ (Literal.ofBool pr false).lexicalForm = str! "false" ∧
    (Literal.ofBool pr b).dataType = some .boolean ∧
    (l.eqBool b = true ↔ l.lexicalForm = (if b then str! "true" else str! "false") ∧ l.dataType = some .boolean) := by
  refine ⟨?_, ?_, rfl, ?_⟩
  · simp only [Literal.ofBool, Literal.withDataType, escape_ascii hp (boolText_ascii true)]; rfl
  · simp only [Literal.ofBool, Literal.withDataType, escape_ascii hp (boolText_ascii false)]; rfl
  · simp only [Literal.eqBool, Bool.and_eq_true, beq_iff_eq]
    cases b <;> rfl

/-- C19: a literal of another type, or without type, equals no boolean and no integer, whatever
its text. -/
theorem C19_other_types (pr : Char → Bool) (s : Str) (t : DataType) :
    (∀ b, (Literal.withDataType pr s t).eqBool b = true → t = .boolean) ∧
    (∀ k v, (Literal.withDataType pr s t).eqInt k v = true → t = k.dataType) ∧
    (∀ b, (Literal.plain pr s).eqBool b = false) ∧ (∀ k v, (Literal.plain pr s).eqInt k v = false) ∧
    (∀ g b, (Literal.withLanguage pr s g).eqBool b = false) ∧
    ∀ g k v, (Literal.withLanguage pr s g).eqInt k v = false := by
  refine ⟨?_, ?_, ?_, ?_, ?_, ?_⟩ <;> intros <;>
    simp_all [Literal.withDataType, Literal.eqBool, Literal.eqInt, Literal.plain, Literal.withLanguage]

/-- C19: literals of different values differ, and integers are never booleans. -/
theorem C19_distinct (pr : Char → Bool) (hp : AsciiPrintable pr) (k k' : IntKind) (v w : Int)
    (a b : Bool) :
    (Literal.ofInt pr k v = Literal.ofInt pr k' w ↔ k = k' ∧ v = w) ∧
    (Literal.ofBool pr a = Literal.ofBool pr b ↔ a = b) ∧
    Literal.ofInt pr k v ≠ Literal.ofBool pr a := by
  refine ⟨?_, ?_, ?_⟩
  · constructor
    · intro h
      rw [← C19_int pr hp k k' v w, h, C19_int pr hp]
      simp
    · rintro ⟨rfl, rfl⟩; rfl
  · constructor
    · intro h
      rw [← C19_bool pr hp a b, h, C19_bool pr hp]
    · rintro rfl; rfl
  · intro h
    have := congrArg Literal.dataType h
    cases k <;> cases this

example : (Literal.ofInt (fun _ => true) .i8 (-12)).lexicalForm = str! "-12" := by decide

/-! ### C20 -/

/-- C20, the full statement. -/
def C20_statement : Prop :=
  ∀ (pr : Char → Bool) (decode : Str → Option (List Nat)) (v : List (Fin 256)), AsciiPrintable pr →
    (Literal.hexEncoded pr v).tryBytes decode = .ok (v.map (·.val))

/-- C20, what holds: the bytes come back exactly when there is one of them; otherwise the
conversion is the error naming the whole text. -/
theorem C20_hex_partial (pr : Char → Bool) (hp : AsciiPrintable pr) (decode : Str → Option (List Nat))
    (v : List (Fin 256)) :
    (Literal.hexEncoded pr v).tryBytes decode =
      if v.length = 1 then .ok (v.map (·.val)) else .error (.hexDecoder (hexEncode v) 0) := by
  have : escapeString pr (hexEncode v) = hexEncode v :=
    escape_ascii hp (fun c hc => by
      have := hexEncode_ascii v c hc
      exact ⟨this.1, this.2.1, this.2.2.1, this.2.2.2.1⟩)
  simp only [Literal.hexEncoded, Literal.withDataType, Literal.tryBytes, this]
  exact hexDecode_hexEncode v

/-- C20 fails for two bytes. -/
theorem C20_fails : ¬ C20_statement := by
  intro h
  have := h (fun _ => true) (fun _ => none) [1, 2] (by intro c _ _; rfl)
  revert this; decide

/-- C20: what the encoder writes is two upper case digits per byte, and it is injective. -/
theorem C20_encode (v w : List (Fin 256)) :
    (hexEncode v).length = 2 * v.length ∧ (hexEncode v = hexEncode w → v = w) := by
  refine ⟨?_, ?_⟩
  · induction v with
    | nil => rfl
    | cons b v ih => simp only [hexEncode, List.flatMap_cons, hexByte] at ih ⊢; simp at ih ⊢; omega
  · have key : ∀ a b : Fin 256, hexByte a = hexByte b → a = b := by
      intro a b h
      have h1 := (hexByte_ok a).1
      rw [h, (hexByte_ok b).1] at h1
      exact (Fin.ext (Option.some.inj h1)).symm
    induction v generalizing w with
    | nil => cases w <;> simp [hexEncode, hexByte]
    | cons a v ih =>
      cases w with
      | nil => simp [hexEncode, hexByte]
      | cons b w =>
        intro h
        simp only [hexEncode, List.flatMap_cons] at h
        have := List.append_inj h (by simp [hexByte])
        rw [key a b this.1, ih w this.2]

/-- C20: bytes encoded in base 64 are never decoded as base 64, because the literal is
tagged as hex binary. -/
theorem C20_base64_fails (pr : Char → Bool) (encode : List (Fin 256) → Str)
    (decode decode' : Str → Option (List Nat)) (v : List (Fin 256)) :
    (Literal.base64Encoded pr encode v).tryBytes decode =
    (Literal.base64Encoded pr encode v).tryBytes decode' ∧
    (Literal.base64Encoded pr encode v).dataType = some .hexBinary := ⟨rfl, rfl⟩

/-! ### C21 -/

/-- C21, the full statement. -/
def C21_statement : Prop := ∀ t : DataType, DataType.fromIri t.asIri = t

/-- The data types without a case in the conversion from an IRI. -/
def DataType.forgotten : List DataType :=
  [.base64Binary, .date, .dateTime, .decimal, .hexBinary, .time, .language]

/-- The built-in data types. -/
def DataType.builtin : List DataType :=
  [.iri, .base64Binary, .boolean, .date, .dateTime, .decimal, .double, .duration, .float, .hexBinary,
   .qName, .string, .time, .long, .int, .short, .byte, .unsignedLong, .unsignedInt, .unsignedShort,
   .unsignedByte, .language, .name, .xmlLiteral]

/-- C21, what holds: it comes back exactly when it is a built-in type that is not one of
the seven forgotten ones, or another IRI than those of the recognised types. -/
theorem C21_round_trip_partial (t : DataType) :
    DataType.fromIri t.asIri = t ↔
      (t ∈ DataType.builtin ∧ t ∉ DataType.forgotten) ∨
      (∃ i, t = .other i ∧ ∀ b ∈ DataType.builtin, b ∉ DataType.forgotten → i ≠ b.asIri) := by
  cases t with
  | other i =>
    have hb : DataType.other i ∉ DataType.builtin := by simp [DataType.builtin]
    simp only [hb, false_and, false_or]
    constructor
    · intro h
      refine ⟨i, rfl, ?_⟩
      rintro b hb' hf rfl
      have key : ∀ b ∈ DataType.builtin, b ∉ DataType.forgotten →
          DataType.fromIri b.asIri = b := by decide +kernel
      have := key b hb' hf
      have h2 : DataType.fromIri b.asIri = .other b.asIri := h
      rw [this] at h2
      rw [h2] at hb'
      simp [DataType.builtin] at hb'
    · rintro ⟨j, hj, h⟩
      cases hj
      have h' : ∀ b ∈ [DataType.string, .qName, .name, .iri, .boolean, .float, .double, .long, .int,
          .short, .byte, .unsignedLong, .unsignedInt, .unsignedShort, .unsignedByte, .duration,
          .xmlLiteral], i ≠ b.asIri := by
        intro b hb'
        apply h b
        · revert b; decide
        · revert b; decide
      simp only [List.mem_cons, List.not_mem_nil, or_false, forall_eq_or_imp, forall_eq,
        DataType.asIri] at h'
      simp [DataType.asIri, DataType.fromIri, h']
  | _ => simp only [reduceCtorEq, false_and, exists_false, or_false]; decide +kernel

/-- C21 fails for dates. -/
theorem C21_fails : ¬ C21_statement := by
  intro h; have := h .date; revert this; decide +kernel

/-- C21, the other direction: the IRI is never changed. -/
theorem C21_iri_kept (i : Iri) : (DataType.fromIri i).asIri = i := by
  have step : ∀ (j : Iri) (t u : DataType), j = t.asIri → u.asIri = i →
      (if i = j then t else u).asIri = i := by
    intro j t u hj hu
    split
    · rename_i h; rw [h, hj]
    · exact hu
  unfold DataType.fromIri
  iterate 17 refine step _ _ _ ?_ ?_; · rfl
  rfl

/-- C21: the IRIs are those of the vocabulary functions named in the code. -/
theorem C21_iris :
    (∀ p ∈ [(str! "any_uri", DataType.iri), (str! "base64_binary", .base64Binary),
      (str! "boolean", .boolean), (str! "date", .date), (str! "date_time", .dateTime),
      (str! "decimal", .decimal), (str! "double", .double), (str! "duration", .duration),
      (str! "float", .float), (str! "hex_binary", .hexBinary), (str! "q_name", .qName),
      (str! "string", .string), (str! "time", .time), (str! "long", .long), (str! "int", .int),
      (str! "short", .short), (str! "byte", .byte), (str! "unsigned_long", .unsignedLong),
      (str! "unsigned_int", .unsignedInt), (str! "unsigned_short", .unsignedShort),
      (str! "unsigned_byte", .unsignedByte), (str! "language", .language), (str! "name", .name)],
      xsdTable.call p.1 = some p.2.asIri) ∧
    rdfTable.call (str! "xml_literal") = some DataType.xmlLiteral.asIri ∧
    (DataType.builtin.map DataType.asIri).Nodup := by
  decide +kernel

/-! ### C22 -/

/-- C22, the full statement. -/
def C22_statement : Prop :=
  ∀ (pr : Char → Bool) (d : Duration), AsciiPrintable pr → d.nanos < 1000000000 →
    (Literal.ofDuration pr d).eqDuration d = true

/-- C22 fails, and not only for some durations: no duration ever equals the literal made of
any duration. -/
theorem C22_fails_always (pr : Char → Bool) (hp : AsciiPrintable pr) (d e : Duration) :
    (Literal.ofDuration pr d).eqDuration e = false := by
  have hd : '.' ∉ Nat.toDigits 10 e.asNanos ∧ 'P' ∉ Nat.toDigits 10 e.asNanos := by
    constructor <;> intro hm <;>
      (have := Nat.isDigit_of_mem_toDigits (by decide) (by decide) hm; revert this; decide)
  rw [← Bool.not_eq_true]
  intro h
  simp only [Literal.eqDuration, Bool.and_eq_true, beq_iff_eq] at h
  have hl := h.1
  have hP : 'P' ∈ (Literal.ofDuration pr d).lexicalForm := by
    simp only [Literal.ofDuration, Literal.withDataType, escapeString, List.mem_flatMap]
    refine ⟨'P', ?_, ?_⟩
    · unfold Duration.text; split <;> simp
    · rw [escapeChar_id (hp 'P' (by decide) (by decide)) (by decide) (by decide) (by decide)]
      simp
  rw [hl] at hP
  exact hd.2 hP

/-- C22, which literals do compare equal to a duration: those of type `xsd:duration` whose text
is the number of nanoseconds in digits, which is no text of that type, and no other. -/
theorem C22_equals (pr : Char → Bool) (hp : AsciiPrintable pr) (s : Str) (t : DataType)
    (d : Duration) :
    ((Literal.withDataType pr s t).eqDuration d = true ↔
      s = Nat.toDigits 10 d.asNanos ∧ t = .duration) ∧
    (Literal.plain pr s).eqDuration d = false ∧
    ∀ g, (Literal.withLanguage pr s g).eqDuration d = false := by
  have he : escapeString pr (Nat.toDigits 10 d.asNanos) = Nat.toDigits 10 d.asNanos :=
    escape_ascii hp toDigits_ascii
  refine ⟨?_, ?_, fun g => ?_⟩
  · simp only [Literal.eqDuration, Literal.withDataType, Bool.and_eq_true, beq_iff_eq,
      Option.some.injEq]
    constructor
    · rintro ⟨h, h'⟩
      rw [← he] at h
      exact ⟨C17_injective pr _ _ h, h'⟩
    · rintro ⟨h, h'⟩
      exact ⟨by rw [h, he], h'⟩
  · simp [Literal.eqDuration, Literal.plain]
  · simp [Literal.eqDuration, Literal.withLanguage]

/-- C22 fails already for a second. -/
theorem C22_fails : ¬ C22_statement := by
  intro h
  have := h (fun _ => true) ⟨1, 0⟩ (by intro c _ _; rfl) (by decide)
  rw [C22_fails_always _ (by intro c _ _; rfl)] at this
  cases this

/-- C22, what holds: literals of different durations differ. -/
theorem C22_injective_partial (pr : Char → Bool) (d e : Duration)
    (h : Literal.ofDuration pr d = Literal.ofDuration pr e) : d = e := by
  have ht : d.text = e.text := C17_injective pr _ _ (congrArg Literal.lexicalForm h)
  have nodot : ∀ n, '.' ∉ Nat.toDigits 10 n := by
    intro n hm
    have := Nat.isDigit_of_mem_toDigits (by decide) (by decide) hm; revert this; decide
  cases d with | mk ds dn =>
  cases e with | mk es en =>
  unfold Duration.text at ht
  simp only at ht
  have sp : ∀ a b : Nat, splitFirst '.' (Nat.toDigits 10 a ++ '.' :: (Nat.toDigits 10 b ++ ['S'])) =
      (Nat.toDigits 10 a, some (Nat.toDigits 10 b ++ ['S'])) := fun a b =>
    splitFirst_append (nodot a)
  have sn : ∀ a : Nat, (splitFirst '.' (Nat.toDigits 10 a ++ ['S'])).2 = none := by
    intro a
    rw [splitFirst_not_mem]
    simp [nodot a]
  split at ht <;> split at ht
  · simp only [List.append_assoc, List.cons_append, List.nil_append, List.cons.injEq, true_and] at ht
    have := congrArg (splitFirst '.') ht
    rw [sp, sp] at this
    simp only [Prod.mk.injEq, Option.some.injEq, List.append_cancel_right_eq] at this
    rw [toDigits_inj this.1, toDigits_inj this.2]
  · simp only [List.append_assoc, List.cons_append, List.nil_append, List.cons.injEq, true_and] at ht
    have := congrArg (fun x => (splitFirst '.' x).2) ht
    simp only [sp, sn] at this
    cases this
  · simp only [List.append_assoc, List.cons_append, List.nil_append, List.cons.injEq, true_and] at ht
    have := congrArg (fun x => (splitFirst '.' x).2) ht
    simp only [sp, sn] at this
    cases this
  · rename_i h1 h2
    simp only [List.cons_append, List.nil_append, List.cons.injEq, true_and,
      List.append_cancel_right_eq] at ht
    rw [toDigits_inj ht]
    congr 1
    omega

/-! ### C23 -/

/-- C23: the explicit form determines lexical form, data type IRI and language, for
literals whose lexical form is escaped and that do not have both a data type and a
language (no constructor gives both). -/
theorem C23_injective (sty : IriStyle) (a b : Literal)
    (ha : noBareQuote false a.lexicalForm = true) (hb : noBareQuote false b.lexicalForm = true)
    (ha' : a.dataType = none ∨ a.language = none) (hb' : b.dataType = none ∨ b.language = none)
    (h : a.display sty true = b.display sty true) :
    a.lexicalForm = b.lexicalForm ∧ a.dataType.map DataType.asIri = b.dataType.map DataType.asIri ∧
    a.language = b.language := by
  have suf : ∀ x y : Literal, (x.dataType = none ∨ x.language = none) →
      (y.dataType = none ∨ y.language = none) → x.suffix sty = y.suffix sty →
      x.dataType.map DataType.asIri = y.dataType.map DataType.asIri ∧ x.language = y.language := by
    have finj : ∀ i j : Iri, i.fmt sty = j.fmt sty → i = j := by
      intro i j hij
      cases i; cases j
      cases sty <;> simpa [Iri.fmt] using hij
    rintro ⟨_, x, xl⟩ ⟨_, y, yl⟩ hx hy hs
    simp only [Literal.suffix] at hs hx hy
    cases x <;> cases y <;> cases xl <;> cases yl <;> simp_all
    exact finj _ _ hs
  unfold Literal.display at h
  simp only [Bool.not_true, Bool.false_and, Bool.false_eq_true, if_false] at h
  split at h <;> split at h
  · rename_i h1 h2
    have e : a.lexicalForm = b.lexicalForm := by simpa using h
    refine ⟨e, by rw [h1, h2], ?_⟩
    simp only [h1, h2, reduceCtorEq, false_or] at ha' hb'
    rw [ha', hb']
  · simp at h
  · simp at h
  · simp only [List.cons_append, List.cons.injEq, true_and] at h
    have h1 := readQuoted_of_noBareQuote false _ (a.suffix sty) ha
    rw [h, readQuoted_of_noBareQuote false _ _ hb] at h1
    simp only [Option.some.injEq, Prod.mk.injEq] at h1
    exact ⟨h1.1.symm, suf a b ha' hb' h1.2.symm⟩

/-- C23: every constructor meets the hypotheses of `C23_injective`. -/
theorem C23_constructors (pr : Char → Bool) (s : Str) (t : DataType) (i : Iri) (lang : Str) :
    ∀ l ∈ [Literal.plain pr s, Literal.withDataType pr s t, Literal.withDataTypeIri pr s i,
      Literal.withLanguage pr s lang],
      noBareQuote false l.lexicalForm = true ∧ (l.dataType = none ∨ l.language = none) := by
  intro l hl
  simp only [List.mem_cons, List.not_mem_nil, or_false] at hl
  rcases hl with rfl | rfl | rfl | rfl <;>
    refine ⟨noBareQuote_escapeString pr s, ?_⟩ <;>
    simp [Literal.plain, Literal.withDataType, Literal.withDataTypeIri, Literal.withLanguage]

/-- The short form does not determine the data type. -/
theorem C23_short_form (sty : IriStyle) (pr : Char → Bool) (v : Int) (k k' : IntKind) :
    (Literal.ofInt pr k v).display sty false = (Literal.ofInt pr k' v).display sty false := by
  cases k <;> cases k' <;> rfl

/-! ### C58 -/

/-- C58, the full statement: the text of a duration denotes the duration. -/
def C58_statement : Prop :=
  ∀ d : Duration, d.nanos < 10 ^ 9 → durationNanos d.text = some d.asNanos

/-- C58, what holds: exactly when the nanoseconds are zero or have nine digits. -/
theorem C58_duration_text_partial (d : Duration) (hn : d.nanos < 10 ^ 9) :
    durationNanos d.text = some d.asNanos ↔ d.nanos = 0 ∨ 10 ^ 8 ≤ d.nanos := by
  have dig : ∀ n, (Nat.toDigits 10 n).all Char.isDigit = true := by
    intro n; rw [List.all_eq_true]
    intro c hc; exact Nat.isDigit_of_mem_toDigits (by decide) (by decide) hc
  have nodot : ∀ n, '.' ∉ Nat.toDigits 10 n := by
    intro n hm
    have := Nat.isDigit_of_mem_toDigits (by decide) (by decide) hm; revert this; decide
  have ssuf : ∀ s : Str, stripSuffix (s ++ ['S']) 'S' = some s := by
    intro s; simp [stripSuffix]
  have ne : ∀ n, Nat.toDigits 10 n ≠ [] := fun n => Nat.toDigits_ne_nil
  unfold Duration.text
  split
  · rename_i hz
    have e : ['P', 'T'] ++ Nat.toDigits 10 d.secs ++ ['.'] ++ Nat.toDigits 10 d.nanos ++ ['S'] =
        'P' :: 'T' :: ((Nat.toDigits 10 d.secs ++ '.' :: Nat.toDigits 10 d.nanos) ++ ['S']) := by simp
    have hlen : (Nat.toDigits 10 d.nanos).length ≤ 9 := by
      rw [Nat.length_toDigits_le_iff (by decide) (by decide)]; exact hn
    have hlen8 := Nat.length_toDigits_le_iff (n := d.nanos) (b := 10) (k := 8) (by decide) (by decide)
    have hpos := Nat.length_toDigits_pos (b := 10) (n := d.nanos)
    rw [e]
    simp only [durationNanos, stripPrefix, if_true, ssuf, splitFirst_append (nodot _), ne, dig, hlen,
      ne_eq, not_false_eq_true, and_self, Nat.ofDigitChars_ten_toDigits, Option.some.injEq,
      Duration.asNanos, hz, false_or]
    generalize (Nat.toDigits 10 d.nanos).length = k at *
    constructor
    · intro h
      have h9 : 10 ^ (9 - k) = 1 := by
        have : d.nanos * 10 ^ (9 - k) = d.nanos * 1 := by omega
        exact Nat.eq_of_mul_eq_mul_left (by omega) this
      have : ¬ (k ≤ 8) := by
        intro hk
        have : 10 ^ 1 ≤ 10 ^ (9 - k) := Nat.pow_le_pow_right (by decide) (by omega)
        omega
      have : ¬ (d.nanos < 10 ^ 8) := fun h' => this (hlen8.2 h')
      omega
    · intro h
      have : ¬ k ≤ 8 := fun h' => by have := hlen8.1 h'; omega
      have : k = 9 := by omega
      subst this; simp
  · rename_i hz
    have hz' : d.nanos = 0 := by omega
    have e : ['P', 'T'] ++ Nat.toDigits 10 d.secs ++ ['S'] =
        'P' :: 'T' :: (Nat.toDigits 10 d.secs ++ ['S']) := by simp
    rw [e]
    simp [durationNanos, stripPrefix, ssuf, splitFirst_not_mem (nodot _), ne, Duration.asNanos, hz']
    intro c hc; exact Nat.isDigit_of_mem_toDigits (by decide) (by decide) hc

/-- C58 fails for half a second written as five nanoseconds. -/
theorem C58_fails : ¬ C58_statement := by
  intro h
  have := (C58_duration_text_partial ⟨1, 5⟩ (by decide)).1 (h ⟨1, 5⟩ (by decide))
  revert this; decide

/-! ### C59 -/

/-- C59, the full statement: the literal of an IRI, name or language tag compares equal to
it and to nothing else of its type. -/
def C59_statement (sty : IriStyle) : Prop :=
  ∀ (pr : Char → Bool) (i j : Iri), AsciiPrintable pr →
    (∀ c ∈ i.text, 0x20 ≤ c.toNat ∧ c.toNat < 0x7F ∧ c ≠ '"' ∧ c ≠ '\\') →
    ((Literal.ofIri pr i).eqIri sty j = true ↔ i = j)

/-- C59 holds for IRIs when they print bare, and for names and language tags in ASCII. -/
theorem C59_bare_partial : C59_statement .bare := by
  intro pr i j hp h
  simp only [Literal.ofIri, Literal.withDataType, Literal.eqIri, escape_ascii hp h, Iri.fmt]
  cases i; cases j; simp

/-- C59 fails when an IRI prints with its own angle brackets, as it now does. -/
theorem C59_fails : ¬ C59_statement .bracketed := by
  intro h
  have := (h (fun _ => true) ⟨str! "a:b"⟩ ⟨str! "a:b"⟩ (by intro c _ _; rfl) (by decide)).2 rfl
  revert this; decide

/-- C59, exactly: the printed form of the other IRI is compared with the escaped text. -/
theorem C59_iff (sty : IriStyle) (pr : Char → Bool) (i j : Iri) :
    (Literal.ofIri pr i).eqIri sty j = true ↔ escapeString pr i.text = j.fmt sty := by
  simp [Literal.ofIri, Literal.withDataType, Literal.eqIri]

/-- C59: with angle brackets the literal of an IRI, which begins with no bracket, equals no IRI at all. -/
theorem C59_fails_always (pr : Char → Bool) (i j : Iri) (h : i.text.head? ≠ some '<') :
    (Literal.ofIri pr i).eqIri .bracketed j = false := by
  rw [Bool.eq_false_iff]
  intro h1
  rw [C59_iff] at h1
  cases ht : i.text with
  | nil => rw [ht] at h1; simp [escapeString, Iri.fmt] at h1
  | cons c t =>
    rw [ht] at h1 h
    have hc : c ≠ '<' := fun e => h (by rw [e]; rfl)
    simp only [escapeString, List.flatMap_cons, Iri.fmt, escapeChar] at h1
    (repeat' split at h1) <;> simp_all

/-- C59 for names and language tags. -/
theorem C59_names (pr : Char → Bool) (hp : AsciiPrintable pr) (m n : Name)
    (h : ∀ c ∈ m.text, 0x20 ≤ c.toNat ∧ c.toNat < 0x7F ∧ c ≠ '"' ∧ c ≠ '\\') :
    ((Literal.ofName pr m).eqName n = true ↔ m = n) ∧
    ((Literal.ofLanguage pr m.text).eqLanguage n.text = true ↔ m = n) := by
  cases m; cases n
  simp only at h
  simp [Literal.ofName, Literal.ofLanguage, Literal.withDataType, Literal.eqName, Literal.eqLanguage,
    escape_ascii hp h, Name.display]

/-- C59: a literal equals an IRI, a name or a language tag if and only if it has the text and the type of one. -/
theorem C59_types (sty : IriStyle) (l : Literal) (i : Iri) (n : Name) (g : Str) :
    (l.eqIri sty i = true ↔ l.lexicalForm = i.fmt sty ∧ l.dataType = some .iri) ∧
    (l.eqName n = true ↔ l.lexicalForm = n.text ∧ l.dataType = some .name) ∧
    (l.eqLanguage g = true ↔ l.lexicalForm = g ∧ l.dataType = some .language) := by
  simp [Literal.eqIri, Literal.eqName, Literal.eqLanguage, Name.display]

/-- C59: converting the literal of an IRI back gives the IRI; a literal that is not of type
IRI is refused. -/
theorem C59_convert (pr : Char → Bool) (hp : AsciiPrintable pr) (parse : Str → Option Iri) (i : Iri)
    (hparse : parse i.text = some i)
    (h : ∀ c ∈ i.text, 0x20 ≤ c.toNat ∧ c.toNat < 0x7F ∧ c ≠ '"' ∧ c ≠ '\\') :
    (Literal.ofIri pr i).tryIri parse = .ok i ∧
    ∀ l : Literal, l.dataType ≠ some .iri → l.tryIri parse = .error .invalidTypeCoercion := by
  constructor
  · simp [Literal.ofIri, Literal.withDataType, Literal.tryIri, escape_ascii hp h, hparse]
  · intro l hl
    unfold Literal.tryIri
    split
    · rename_i e; exact absurd e hl
    · rfl

example : ∀ c ∈ (str! "http://example.com/a"),
    0x20 ≤ c.toNat ∧ c.toNat < 0x7F ∧ c ≠ '"' ∧ c ≠ '\\' := by decide

end Rdftk
