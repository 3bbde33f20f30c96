import Verif.Spec.Csv

/-! Properties C118-C120: query results as CSV and TSV (`rdftk_query`). -/

namespace Rdftk
open Spec

/-! ### C118 -/

/-- A delimiter that is not taken for something else. -/
def GoodDelimiter (d : Char) : Prop := d ≠ '"' ∧ d ≠ '\n' ∧ d ≠ '\r'

theorem delimiter_good (o : CsvOptions) : GoodDelimiter o.delimiter := by
  unfold CsvOptions.delimiter
  split <;> exact ⟨by decide, by decide, by decide⟩

theorem csvScan_quoted (d : Char) (s f : Str) (r : List Str) (rest : Str) :
    csvScan d .quoted f r (s.flatMap (fun c => if c = '"' then ['"', '"'] else [c]) ++ '"' :: rest) =
      csvScan d .closed (f ++ s) r rest := by
  induction s generalizing f with
  | nil => simp [csvScan]
  | cons c s ih =>
    by_cases hc : c = '"'
    · subst hc
      simp only [List.flatMap_cons, if_true, List.cons_append, List.nil_append]
      rw [csvScan, if_pos rfl, csvScan, if_pos rfl, ih]
      simp
    · simp only [List.flatMap_cons, if_neg hc, List.cons_append, List.nil_append]
      rw [csvScan, if_neg hc, ih]
      simp

theorem csvScan_plain (d : Char) (s f : Str) (r : List Str) (rest : Str) (h : ∀ c ∈ s, csvSpecial d c = false) :
    csvScan d .plain f r (s ++ rest) = csvScan d .plain (f ++ s) r rest := by
  induction s generalizing f with
  | nil => simp
  | cons c s ih =>
    have hc := h c List.mem_cons_self
    simp only [csvSpecial, Bool.or_eq_false_iff, beq_eq_false_iff_ne] at hc
    obtain ⟨⟨⟨h1, h2⟩, h3⟩, h4⟩ := hc
    rw [List.cons_append, csvScan, if_neg h2, if_neg h1, if_neg h3, if_neg h4, ih _ fun c hc => h c (.tail _ hc)]
    simp

/-- After a field comes the delimiter or the end of the line. -/
theorem csvScan_field (d : Char) (hd : GoodDelimiter d) (s : Str) (r : List Str) (c : Char) (rest : Str)
    (hc : c = d ∨ c = '\n') :
    csvScan d .start [] r (csvField d s ++ c :: rest) =
      if c = d then csvScan d .start [] (r ++ [s]) rest
      else (csvScan d .start [] [] rest).map ((r ++ [s]) :: ·) := by
  have hq : c ≠ '"' := by
    rcases hc with rfl | rfl
    · exact hd.1
    · decide
  unfold csvField
  split
  · rw [List.cons_append, List.cons_append, csvScan.eq_def]
    simp only [if_true]
    rw [List.append_assoc, List.singleton_append, csvScan_quoted, csvScan, if_neg hq]
    rcases hc with rfl | rfl
    · simp
    · by_cases h : '\n' = d
      · exact absurd h.symm hd.2.1
      · simp [h]
  · rename_i hs
    simp only [List.any_eq_true, not_exists, not_and, Bool.not_eq_true] at hs
    cases s with
    | nil =>
      rw [List.nil_append, csvScan.eq_def]
      simp only [if_neg hq]
      rcases hc with rfl | rfl
      · simp
      · simp [show ¬'\n' = d from fun h => hd.2.1 h.symm]
    | cons a s =>
      have ha := hs a List.mem_cons_self
      simp only [csvSpecial, Bool.or_eq_false_iff, beq_eq_false_iff_ne] at ha
      obtain ⟨⟨⟨h1, h2⟩, h3⟩, h4⟩ := ha
      rw [List.cons_append, csvScan, if_neg h2, if_neg h1, if_neg h3, if_neg h4,
        csvScan_plain _ _ _ _ _ fun c hc => hs c (.tail _ hc), csvScan, if_neg hq]
      rcases hc with rfl | rfl
      · simp
      · simp [show ¬'\n' = d from fun h => hd.2.1 h.symm]

theorem csvScan_fields (d : Char) (hd : GoodDelimiter d) (fs : List Str) (r : List Str) (rest : Str) (h : fs ≠ []) :
    csvScan d .start [] r (csvFields d fs ++ '\n' :: rest) =
      (csvScan d .start [] [] rest).map ((r ++ fs) :: ·) := by
  induction fs generalizing r with
  | nil => exact absurd rfl h
  | cons f fs ih =>
    cases fs with
    | nil =>
      rw [csvFields, csvScan_field d hd _ _ _ _ (.inr rfl), if_neg fun h => hd.2.1 h.symm]
    | cons g fs =>
      rw [csvFields, List.append_assoc, List.cons_append, csvScan_field d hd _ _ _ _ (.inl rfl), if_pos rfl, ih _ (by simp)]
      simp

/-- A record with no fields is written like one with an empty field. -/
def csvShown (r : List Str) : List Str := if r = [] then [[]] else r

theorem csvScan_record (d : Char) (hd : GoodDelimiter d) (fs : List Str) (rest : Str) :
    csvScan d .start [] [] (csvRecord d fs ++ rest) = (csvScan d .start [] [] rest).map (csvShown fs :: ·) := by
  unfold csvRecord csvShown
  split
  · rename_i h
    have e : (if fs = [] then [[]] else fs) = [([] : Str)] := by
      cases fs with
      | nil => rfl
      | cons f fs =>
        cases fs with
        | nil =>
          simp only [csvFields, csvField] at h
          split at h
          · simp at h
          · simp [h]
        | cons g fs => simp [csvFields] at h
    rw [e]
    have : ('\n' : Char) ≠ d := fun h => hd.2.1 h.symm
    simp [csvScan, this]
  · rename_i h
    have hf : fs ≠ [] := fun e => h (by rw [e]; rfl)
    rw [List.append_assoc, List.singleton_append, csvScan_fields d hd _ _ _ hf, if_neg hf]
    rfl

theorem csvRecords_spec (d : Char) (hd : GoodDelimiter d) (n : Option Nat) (rs : List (List Str)) :
    ((csvRecords d n rs).2 = true ↔ ∃ k, (∀ r ∈ rs, r.length = k) ∧ ∀ m, n = some m → k = m) ∧
    ((csvRecords d n rs).2 = true → csvRead d (csvRecords d n rs).1 = some (rs.map csvShown)) := by
  induction rs generalizing n with
  | nil =>
    refine ⟨?_, fun _ => by simp [csvRecords, csvRead, csvScan]⟩
    cases n with
    | none => simp [csvRecords]
    | some m => simp [csvRecords]
  | cons r rs ih =>
    cases n with
    | none =>
      obtain ⟨h1, h2⟩ := ih (some r.length)
      constructor
      · simp only [csvRecords]
        rw [h1]
        constructor
        · rintro ⟨k, h, hk⟩
          obtain rfl := hk _ rfl
          exact ⟨r.length, by simpa using h, by simp⟩
        · rintro ⟨k, h, -⟩
          exact ⟨k, fun x hx => h x (.tail _ hx), by rintro m ⟨⟩; exact (h r List.mem_cons_self).symm⟩
      · simp only [csvRecords]
        intro h
        unfold csvRead at *
        rw [csvScan_record d hd, h2 h]
        rfl
    | some m =>
      obtain ⟨h1, h2⟩ := ih (some m)
      by_cases hr : r.length = m
      · simp only [csvRecords, if_pos hr]
        constructor
        · rw [h1]
          constructor
          · rintro ⟨k, h, hk⟩
            obtain rfl := hk _ rfl
            exact ⟨k, by simpa [hr] using h, fun _ h => by injection h⟩
          · rintro ⟨k, h, hk⟩
            exact ⟨k, fun x hx => h x (.tail _ hx), hk⟩
        · intro h
          unfold csvRead at *
          rw [csvScan_record d hd, h2 h]
          rfl
      · simp only [csvRecords, if_neg hr]
        constructor
        · constructor
          · simp
          · rintro ⟨k, h, hk⟩
            exact absurd ((h r List.mem_cons_self).trans (hk m rfl)) hr
        · simp

/-- C118: results can be written exactly when all records have the same number of fields. -/
theorem C118_written_iff (sty : IriStyle) (o : CsvOptions) (r : QResults) :
    (∃ t, r.toText sty o = some t) ↔ ∃ k, ∀ f ∈ r.records sty o, f.length = k := by
  have h := (csvRecords_spec o.delimiter (delimiter_good o) none (r.records sty o)).1
  simp only [reduceCtorEq, false_imp_iff, implies_true, and_true] at h
  rw [← h]
  unfold QResults.toText
  simp

/-- C118, the full statement: results that are written are read back by RFC 4180, field by field. -/
def C118_statement : Prop := ∀ (sty : IriStyle) (o : CsvOptions) (r : QResults) (t : Str),
  r.toText sty o = some t → csvRead o.delimiter t = some (r.records sty o)

/-- C118: what is read back. -/
theorem C118_read (sty : IriStyle) (o : CsvOptions) (r : QResults) (t : Str) (h : r.toText sty o = some t) :
    csvRead o.delimiter t = some ((r.records sty o).map csvShown) := by
  unfold QResults.toText at h
  simp only at h
  split at h
  · rename_i h'
    injection h with h
    subst h
    exact (csvRecords_spec _ (delimiter_good o) none _).2 h'
  · simp at h

/-- C118: fields are separated by tabs if this was chosen, and by commas otherwise. -/
theorem C118_delimiter (sty : IriStyle) (o : CsvOptions) (r : QResults) (t : Str) (h : r.toText sty o = some t) :
    (o.tabSeparated = true → csvRead '\t' t = some ((r.records sty o).map csvShown)) ∧
    (o.tabSeparated = false → csvRead ',' t = some ((r.records sty o).map csvShown)) := by
  have := C118_read sty o r t h
  constructor <;> intro ht <;> simpa [CsvOptions.delimiter, ht] using this

/-- C118 holds exactly for results without empty records. -/
theorem C118_iff (sty : IriStyle) (o : CsvOptions) (r : QResults) (t : Str) (h : r.toText sty o = some t) :
    csvRead o.delimiter t = some (r.records sty o) ↔ [] ∉ r.records sty o := by
  rw [C118_read sty o r t h, Option.some.injEq]
  constructor
  · intro e hm
    have := List.mem_map_of_mem (f := csvShown) hm
    generalize r.records sty o = l at *
    have key : ∀ l : List (List Str), l.map csvShown = l → [] ∉ l := by
      intro l
      induction l with
      | nil => simp
      | cons a l ih =>
        intro e
        rw [List.map_cons] at e
        injection e with e1 e2
        simp only [List.mem_cons, not_or]
        refine ⟨fun h => ?_, ih e2⟩
        subst h
        simp [csvShown] at e1
    exact key l e hm
  · intro h
    refine (List.map_congr_left fun a ha => ?_).trans (List.map_id _)
    simp [csvShown, show a ≠ [] from fun e => h (e ▸ ha)]

/-- C118 fails for results without columns. -/
theorem C118_fails : ¬C118_statement := fun h =>
  (C118_iff .bare ⟨false, false⟩ ⟨[], []⟩ _ rfl).1 (h _ _ _ _ rfl) List.mem_cons_self

/-- C118 for results with columns whose rows are as long.  Missing: results without columns, for which
the empty record cannot be told from an empty field. -/
theorem C118_partial (sty : IriStyle) (o : CsvOptions) (r : QResults) (hc : r.columns ≠ [])
    (hr : ∀ row ∈ r.rows, row.length = r.columns.length) :
    ∃ t, r.toText sty o = some t ∧ csvRead o.delimiter t = some (r.records sty o) := by
  obtain ⟨t, ht⟩ := (C118_written_iff sty o r).2 ⟨r.columns.length, by
    intro f hf
    simp only [QResults.records, List.mem_append, List.mem_map] at hf
    rcases hf with hf | ⟨row, hrow, rfl⟩
    · split at hf
      · simp_all
      · simp at hf
    · simp [hr row hrow]⟩
  refine ⟨t, ht, (C118_iff sty o r t ht).2 ?_⟩
  simp only [QResults.records, List.mem_append, List.mem_map, not_or, not_exists, not_and]
  refine ⟨?_, fun row hrow e => ?_⟩
  · split
    · simpa using hc
    · simp
  · have := hr row hrow
    simp only [List.map_eq_nil_iff] at e
    subst e
    exact hc (List.eq_nil_of_length_eq_zero this.symm)

theorem csvField_quoted (d : Char) (f : Str) : csvQuoted d f (csvField d f) := by
  unfold csvField csvQuoted
  split
  · rename_i h
    refine .inr ⟨?_, rfl⟩
    obtain ⟨c, hc, h⟩ := List.any_eq_true.1 h
    refine ⟨c, hc, ?_⟩
    simpa [csvSpecial, or_assoc] using h
  · rename_i h
    refine .inl ⟨rfl, fun c hc => ?_⟩
    have : ¬csvSpecial d c = true := fun e => h (List.any_eq_true.2 ⟨c, hc, e⟩)
    simpa [csvSpecial, not_or, and_assoc] using this

theorem csvField_nil (d : Char) (f : Str) : csvField d f = [] ↔ f = [] := by
  unfold csvField
  split
  · simp only [List.cons_append, reduceCtorEq, false_iff]
    rintro rfl
    rename_i h
    simp at h
  · rfl

theorem csvFields_eq (d : Char) (fs : List Str) : csvFields d fs = [d].intercalate (fs.map (csvField d)) := by
  induction fs with
  | nil => rfl
  | cons f fs ih =>
    cases fs with
    | nil => simp [csvFields]
    | cons g fs =>
      rw [csvFields, ih]
      simp [List.intercalate, List.intersperse]

theorem csvFields_nil (d : Char) (fs : List Str) : csvFields d fs = [] ↔ fs = [] ∨ fs = [[]] := by
  cases fs with
  | nil => simp [csvFields]
  | cons f fs =>
    cases fs with
    | nil => simp [csvFields, csvField_nil]
    | cons g fs => simp [csvFields]

theorem csvRecord_line (d : Char) (fs : List Str) : CsvLine d fs (csvRecord d fs) := by
  unfold csvRecord
  split
  · rename_i h
    exact .inl ⟨(csvFields_nil d fs).1 h, rfl⟩
  · rename_i h
    rw [csvFields_nil, not_or] at h
    refine .inr ⟨h.1, h.2, fs.map (csvField d), ?_, by rw [csvFields_eq]⟩
    clear h
    induction fs with
    | nil => exact .nil
    | cons f fs ih => exact .cons (csvField_quoted d f) ih

/-- C118: the text that is written is the lines of the records, one after the other. -/
theorem C118_lines (sty : IriStyle) (o : CsvOptions) (r : QResults) (t : Str) (h : r.toText sty o = some t) :
    ∃ ls : List Str, List.Forall₂ (CsvLine o.delimiter) (r.records sty o) ls ∧ t = ls.flatten := by
  have key : ∀ (n : Option Nat) (rs : List (List Str)), (csvRecords o.delimiter n rs).2 = true →
      (csvRecords o.delimiter n rs).1 = (rs.map (csvRecord o.delimiter)).flatten := by
    intro n rs
    induction rs generalizing n with
    | nil => intro _; cases n <;> rfl
    | cons a rs ih =>
      intro h
      cases n with
      | none =>
        simp only [csvRecords] at h ⊢
        simp [ih _ h]
      | some m =>
        simp only [csvRecords] at h ⊢
        split at h
        · rename_i hm
          simp only [hm, if_true]
          simp only at h
          simp [ih _ h]
        · simp at h
  unfold QResults.toText at h
  simp only at h
  split at h
  · rename_i h'
    obtain rfl := Option.some.inj h
    refine ⟨_, ?_, key _ _ h'⟩
    generalize r.records sty o = rs
    induction rs with
    | nil => exact .nil
    | cons a rs ih => exact .cons (csvRecord_line _ a) ih
  · cases h

/-- C118: the records are the row of names of columns and the rows of values; TSV always has the first, CSV unless the
option says otherwise. -/
theorem C118_records (sty : IriStyle) (o : CsvOptions) (r : QResults) :
    (o.tabSeparated = true ∨ o.skipHeaders = false →
      r.records sty o = r.columns :: r.rows.map fun row => row.map (·.display sty)) ∧
    (o.tabSeparated = false ∧ o.skipHeaders = true →
      r.records sty o = r.rows.map fun row => row.map (·.display sty)) := by
  obtain ⟨a, b⟩ := o
  cases a <;> cases b <;> simp [QResults.records]

/-- C118: reading results back with the crate panics, whatever the text. -/
theorem C118_fails_reader (o : CsvOptions) (s : Str) : QResults.fromText o s = .panic := rfl

/-! ### C119 -/

/-- C119, the full statement: values and variables are written in the forms of the recommendation. -/
def C119_statement : Prop := ∀ (sty : IriStyle) (v : QValue), v.display sty = csvForm v ∧ TsvForm v (csvField '\t' (v.display sty))

/-- C119: which values have the form of CSV: IRIs without brackets and literals of the types that are
printed without quotes. -/
theorem C119_csv_iff (sty : IriStyle) (v : QValue) :
    v.display sty = csvForm v ↔ match v with
      | .bnode _ => False
      | .iri _ => sty = .bare
      | .lit l => ∃ t, l.dataType = some t ∧ t.isBare = true := by
  cases v with
  | bnode b =>
    simp only [QValue.display, csvForm, iff_false]
    intro h
    have := congrArg List.length h
    simp at this
    omega
  | iri i =>
    simp only [QValue.display, csvForm]
    cases sty
    · simp [Iri.fmt]
    · simp only [Iri.fmt, reduceCtorEq, iff_false]
      intro h
      have := congrArg List.length h
      simp at this
      omega
  | lit l =>
    simp only [QValue.display, csvForm, Literal.display]
    by_cases h1 : l.dataType = some .iri
    · simp only [h1, if_true, Option.some.injEq, exists_eq_left', DataType.isBare, Bool.false_eq_true, iff_false]
      intro h
      have := congrArg List.length h
      simp at this
      omega
    · simp only [if_neg h1, Bool.not_false, Bool.true_and]
      cases hd : l.dataType with
      | none =>
        simp only [Option.map_none, Option.getD_none, Bool.false_eq_true, if_false, reduceCtorEq, false_and, exists_false, iff_false]
        intro h
        have := congrArg List.length h
        simp at this
        omega
      | some t =>
        simp only [Option.map_some, Option.getD_some, Option.some.injEq, exists_eq_left']
        by_cases hb : t.isBare = true
        · simp [hb]
        · simp only [hb, if_false, Bool.false_eq_true, iff_false]
          intro h
          have := congrArg List.length h
          simp at this
          omega

theorem csvField_special {d : Char} {s : Str} (h : s.any (csvSpecial d) = true) :
    ∃ m, csvField d s = '"' :: m ++ ['"'] ∧ s.length ≤ m.length ∧ ('"' ∈ s → s.length < m.length) := by
  refine ⟨_, by rw [csvField, if_pos h], ?_, ?_⟩
  · clear h
    induction s with
    | nil => simp
    | cons c s ih =>
      simp only [List.flatMap_cons, List.length_append, List.length_cons]
      split <;> simp only [List.length_cons, List.length_nil] <;> omega
  · clear h
    have hle : ∀ s : Str, s.length ≤ (s.flatMap fun c => if c = '"' then ['"', '"'] else [c]).length := by
      intro s
      induction s with
      | nil => simp
      | cons c s ih =>
        simp only [List.flatMap_cons, List.length_append, List.length_cons]
        split <;> simp only [List.length_cons, List.length_nil] <;> omega
    induction s with
    | nil => simp
    | cons c s ih =>
      intro hm
      simp only [List.flatMap_cons, List.length_append, List.length_cons]
      by_cases hc : c = '"'
      · have := hle s
        simp only [hc, if_true, List.length_cons, List.length_nil]
        omega
      · have := ih (by simpa [Ne.symm hc] using hm)
        simp only [hc, if_false, List.length_cons, List.length_nil]
        omega

theorem csvField_plain {d : Char} {s : Str} (h : s.any (csvSpecial d) = false) : csvField d s = s := by
  rw [csvField, if_neg (by simp [h])]

/-- C119: which values have the form of TSV: IRIs with brackets, and booleans, decimals and doubles. -/
theorem C119_tsv_iff (sty : IriStyle) (v : QValue) (hv : ∀ l, v = .lit l → l.dataType = none ∨ l.language = none) :
    TsvForm v (csvField '\t' (v.display sty)) ↔ match v with
      | .bnode _ => False
      | .iri i => sty = .bracketed ∧ i.text.any (csvSpecial '\t') = false
      | .lit l => (l.dataType = some .boolean ∨ l.dataType = some .decimal ∨ l.dataType = some .double) ∧
          l.lexicalForm.any (csvSpecial '\t') = false := by
  cases v with
  | bnode b =>
    simp only [TsvForm, QValue.display, iff_false]
    intro h
    cases hb : b.any (csvSpecial '\t') with
    | true =>
      obtain ⟨m, e, -⟩ := csvField_special hb
      rw [e] at h
      simp at h
    | false =>
      rw [csvField_plain hb] at h
      have := congrArg List.length h
      simp at this
      omega
  | iri i =>
    simp only [TsvForm, QValue.display]
    cases sty
    · simp only [Iri.fmt, reduceCtorEq, false_and, iff_false]
      intro h
      cases hb : i.text.any (csvSpecial '\t') with
      | true =>
        obtain ⟨m, e, -⟩ := csvField_special hb
        rw [e] at h
        simp at h
      | false =>
        rw [csvField_plain hb] at h
        have := congrArg List.length h
        simp at this
        omega
    · have e : (Iri.fmt .bracketed i).any (csvSpecial '\t') = i.text.any (csvSpecial '\t') := by
        simp [Iri.fmt, List.any_append, show csvSpecial '\t' '<' = false by decide, show csvSpecial '\t' '>' = false by decide]
      simp only [true_and]
      cases hb : i.text.any (csvSpecial '\t') with
      | true =>
        obtain ⟨m, e', -⟩ := csvField_special (e.trans hb)
        rw [e']
        simp
      | false =>
        rw [csvField_plain (e.trans hb)]
        simp [Iri.fmt]
  | lit l =>
    have hl := hv l rfl
    simp only [TsvForm, QValue.display]
    -- the last character tells a literal with a type
    have typed : ∀ t, l.dataType = some t → ∀ m : Str, ('"' :: m ++ ['"']) ≠ '"' :: l.lexicalForm ++ ['"'] ++
        (str! "^^<" ++ t.asIri.text ++ str! ">") := by
      intro t _ m h
      rw [show '"' :: l.lexicalForm ++ ['"'] ++ (str! "^^<" ++ t.asIri.text ++ str! ">") =
        ('"' :: l.lexicalForm ++ ['"'] ++ (str! "^^<" ++ t.asIri.text)) ++ ['>'] by simp] at h
      have := (List.append_inj' h rfl).2
      revert this
      decide
    by_cases h1 : l.dataType = some .iri
    · simp only [h1, Literal.display, if_true, Option.some.injEq, reduceCtorEq, or_self, and_false, or_false, false_and, iff_false]
      intro h
      cases hb : ('<' :: l.lexicalForm ++ ['>']).any (csvSpecial '\t') with
      | true =>
        obtain ⟨m, e, -⟩ := csvField_special hb
        rw [e] at h
        exact typed _ h1 m h
      | false =>
        rw [csvField_plain hb] at h
        simp at h
    · by_cases h2 : (l.dataType.map DataType.isBare).getD false = true
      · have hd : l.display sty false = l.lexicalForm := by simp [Literal.display, h1, h2]
        rw [hd]
        cases ht : l.dataType with
        | none => simp [ht] at h2
        | some t =>
          simp only [Option.some.injEq]
          cases hb : l.lexicalForm.any (csvSpecial '\t') with
          | true =>
            obtain ⟨m, e, e2, -⟩ := csvField_special hb
            rw [e]
            simp only [reduceCtorEq, and_false, iff_false, not_or, not_and]
            refine ⟨typed t ht m, fun h => ?_⟩
            have := congrArg List.length h
            simp at this
            omega
          | false =>
            rw [csvField_plain hb]
            simp only [true_and, and_true]
            constructor
            · rintro (h | h)
              · have := congrArg List.length h
                simp at this
                omega
              · exact h
            · exact .inr
      · have hd : l.display sty false = '"' :: l.lexicalForm ++ '"' :: l.suffix sty := by simp [Literal.display, h1, h2]
        rw [hd]
        obtain ⟨m, e, -, e3⟩ := csvField_special (d := '\t') (s := '"' :: l.lexicalForm ++ '"' :: l.suffix sty) (by simp [csvSpecial])
        have e3 := e3 (by simp)
        rw [e]
        have hn : ¬(l.dataType = some .boolean ∨ l.dataType = some .decimal ∨ l.dataType = some .double) := by
          rintro (h | h | h) <;> simp [h, DataType.isBare] at h2
        simp only [hn, and_false, or_false, false_and, iff_false]
        intro h
        cases ht : l.dataType with
        | some t =>
          simp only [ht] at h
          exact typed t ht m h
        | none =>
          simp only [ht] at h
          have := congrArg List.length h
          simp only [Literal.suffix, ht] at e3
          cases hlang : l.language <;> simp [hlang] at this e3 <;> omega

/-- C119 fails for blank nodes, which lose the `_:` in both formats. -/
theorem C119_fails : ¬C119_statement := fun h => (C119_csv_iff .bare (.bnode [])).1 (h _ _).1

/-- C119: the first line has the form of CSV, but never that of TSV. -/
theorem C119_header (v : Str) :
    headerForm ⟨false, false⟩ v = v ∧ csvField '\t' v ≠ headerForm ⟨true, false⟩ v := by
  refine ⟨rfl, fun h => ?_⟩
  simp only [headerForm, if_true] at h
  cases hb : v.any (csvSpecial '\t') with
  | true =>
    obtain ⟨m, e, -⟩ := csvField_special hb
    rw [e] at h
    simp at h
  | false =>
    rw [csvField_plain hb] at h
    have := congrArg List.length h
    simp at this

/-- C119: no way of printing IRIs is right for both formats. -/
theorem C119_fails_iris (sty : IriStyle) (i : Iri) :
    ¬((QValue.iri i).display sty = csvForm (.iri i) ∧ TsvForm (.iri i) (csvField '\t' ((QValue.iri i).display sty))) := by
  rintro ⟨h1, h2⟩
  rw [C119_csv_iff] at h1
  rw [C119_tsv_iff _ _ (by simp)] at h2
  simp only at h1 h2
  simp [h1] at h2

/-! ### C120 -/

/-- C120, the full statement: when results are written to a file without an error, the file has
their text. -/
def C120_statement : Prop := ∀ (sty : IriStyle) (o : CsvOptions) (r : QResults) (file : Option Str),
  (r.toFile sty o file).1 = true → (r.toFile sty o file).2 = r.toText sty o

/-- C120: when writing to a file succeeds: the file exists and the text has at most 8192 bytes. -/
theorem C120_succeeds_iff (sty : IriStyle) (o : CsvOptions) (r : QResults) (file : Option Str) :
    (r.toFile sty o file).1 = true ↔ file.isSome = true ∧ ∃ t, r.toText sty o = some t ∧ byteLen t ≤ 8192 := by
  cases file with
  | none => simp [QResults.toFile]
  | some old =>
    simp only [QResults.toFile, QResults.toText]
    split <;> rename_i h <;> simp [h]

/-- C120: the file is never changed. -/
theorem C120_unchanged (sty : IriStyle) (o : CsvOptions) (r : QResults) (file : Option Str) :
    (r.toFile sty o file).2 = file := by
  cases file <;> rfl

/-- C120 fails. -/
theorem C120_fails : ¬C120_statement := fun h => by
  have := h .bare ⟨false, false⟩ ⟨[str! "a"], []⟩ (some []) (by decide +kernel)
  rw [C120_unchanged] at this
  revert this
  decide +kernel

/-- C120 holds for a call exactly when it fails or the file has the text already. -/
theorem C120_iff (sty : IriStyle) (o : CsvOptions) (r : QResults) (file : Option Str) :
    ((r.toFile sty o file).1 = true → (r.toFile sty o file).2 = r.toText sty o) ↔
      (r.toFile sty o file).1 = false ∨ file = r.toText sty o := by
  rw [C120_unchanged]
  cases (r.toFile sty o file).1 <;> simp

/-- Rows with a comma and a quote are read back. -/
example : QResults.toText .bare ⟨false, false⟩ ⟨[str! "a", str! "b"], [[.bnode (str! "x,y"), .iri ⟨str! "http://a/"⟩]]⟩ =
    some (str! "a,b\n\"x,y\",http://a/\n") := by decide +kernel

end Rdftk
