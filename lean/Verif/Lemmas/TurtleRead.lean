import Verif.Spec.TurtleSafe
import Verif.Lemmas.Grammar
import Verif.Lemmas.Literal
import Verif.Lemmas.Iri

/-! What the Turtle reader of the specification makes of single tokens. -/

namespace Rdftk
open Spec

/-! ### Texts one after the other -/

theorem readFrom_append (m : Mode) (d : Doc) (a b : Str) :
    readFrom m d (a ++ b) = (readFrom m d a).bind fun r => readFrom r.1 r.2 b := by
  induction a generalizing m d with
  | nil => rfl
  | cons c a ih =>
    simp only [List.cons_append, readFrom, Option.bind_assoc]
    congr 1; funext r
    congr 1; funext d
    exact ih r.2 d

/-- The text is read and ends between tokens. -/
def Reads (d : Doc) (t : Str) (d' : Doc) : Prop := readFrom .start d t = some (.start, d')

/-- What may follow a name in the texts here. -/
def delims : Str := str! " \n,"

/-- The text is read, and the next delimiter or the end shows that it was. -/
def Settles (d : Doc) (t : Str) (d' : Doc) : Prop :=
  ∃ m d₁, readFrom .start d t = some (m, d₁) ∧
    (∀ c ∈ delims, ∀ s, readFrom m d₁ (c :: s) = readFrom .start d' (c :: s)) ∧
    (scanEnd m).bind d₁.steps = some d'

theorem Reads.nil (d : Doc) : Reads d [] d := rfl

theorem Reads.settles {d d' : Doc} {t : Str} (h : Reads d t d') : Settles d t d' :=
  ⟨.start, d', h, fun _ _ _ => rfl, rfl⟩

theorem Reads.append {d d' d'' : Doc} {s t : Str} (h : Reads d s d') (h' : Reads d' t d'') :
    Reads d (s ++ t) d'' := by
  unfold Reads at *
  rw [readFrom_append, h]; exact h'

theorem Reads.then_settles {d d' d'' : Doc} {s t : Str} (h : Reads d s d') (h' : Settles d' t d'') :
    Settles d (s ++ t) d'' := by
  obtain ⟨m, d₁, h1, h2, h3⟩ := h'
  refine ⟨m, d₁, ?_, h2, h3⟩
  rw [readFrom_append, h]; exact h1

theorem Settles.append {d d' d'' : Doc} {s t : Str} {c : Char} (h : Settles d s d') (hc : c ∈ delims)
    (h' : Settles d' (c :: t) d'') : Settles d (s ++ c :: t) d'' := by
  obtain ⟨m, d₁, h1, h2, -⟩ := h
  obtain ⟨m', d₂, h3, h4, h5⟩ := h'
  refine ⟨m', d₂, ?_, h4, h5⟩
  rw [readFrom_append, h1]
  simp only [Option.bind_some]
  rw [h2 c hc, h3]

theorem Settles.reads {d d' d'' : Doc} {s t : Str} {c : Char} (h : Settles d s d') (hc : c ∈ delims)
    (h' : Reads d' (c :: t) d'') : Reads d (s ++ c :: t) d'' := by
  obtain ⟨m, d₁, h1, h2, -⟩ := h
  unfold Reads
  rw [readFrom_append, h1]
  simp only [Option.bind_some]
  rw [h2 c hc]; exact h'

theorem Reads.white {d : Doc} {t : Str} (h : ∀ c ∈ t, white c = true) : Reads d t d := by
  induction t with
  | nil => rfl
  | cons c t ih =>
    have hc := h c (by simp)
    have := ih fun x hx => h x (by simp [hx])
    unfold Reads at *
    simp [readFrom, scan, scanStart, hc, Doc.steps, this]

theorem Reads.space (d : Doc) (n : Nat) : Reads d (List.replicate n ' ') d :=
  .white fun c hc => by rw [List.eq_of_mem_replicate hc]; decide

/-- A single character token. -/
theorem Reads.punct {d d' : Doc} {c : Char} {t : Tok} (hc : scanStart c = some ([t], .start))
    (h : d.step t = some d') : Reads d [c] d' := by
  simp [Reads, readFrom, scan, hc, Doc.steps, h]

/-! ### IRIs -/

theorem scan_iri (d : Doc) (acc s : Str) (h : ∀ c ∈ s, iriChar c = true) :
    readFrom (.iri acc) d s = some (.iri (acc ++ s), d) := by
  induction s generalizing acc with
  | nil => simp [readFrom]
  | cons c s ih =>
    have hc := h c (by simp)
    have h1 : c ≠ '>' := by rintro rfl; revert hc; decide
    have h2 : c ≠ '\\' := by rintro rfl; revert hc; decide
    simp [readFrom, scan, h1, h2, hc, Doc.steps, ih (acc ++ [c]) fun x hx => h x (by simp [hx])]

theorem Reads.iri {d d' : Doc} {s : Str} (hs : ∀ c ∈ s, iriChar c = true)
    (h : d.step (.iri s) = some d') : Reads d ('<' :: s ++ ['>']) d' := by
  unfold Reads
  have e : readFrom .start d ('<' :: s ++ ['>']) = readFrom (.iri []) d (s ++ ['>']) := by
    simp [readFrom, scan, show scanStart '<' = some ([], .iri []) from rfl, Doc.steps]
  rw [e, readFrom_append, scan_iri d [] s hs]
  simp [readFrom, scan, Doc.steps, h]

/-! ### Names -/

theorem scan_name (d : Doc) (acc s : Str) (h : ∀ c ∈ s, nameChar c = true) :
    readFrom (.name acc) d s = some (.name (acc ++ s), d) := by
  induction s generalizing acc with
  | nil => simp [readFrom]
  | cons c s ih =>
    have hc := h c (by simp)
    simp [readFrom, scan, hc, Doc.steps, ih (acc ++ [c]) fun x hx => h x (by simp [hx])]

theorem nameChar_start {c : Char} (h : nameChar c = true) : scanStart c = some ([], .name [c]) := by
  have hn : ∀ x ∈ (str! " \t\r\n#<\"@^;,[]()"), c ≠ x := by
    rintro x hx rfl
    revert h
    have : ∀ x ∈ (str! " \t\r\n#<\"@^;,[]()"), ¬ nameChar x = true := by decide
    exact this c hx
  have hw : white c = false := by
    simp [white]
    exact ⟨hn _ (by decide), hn _ (by decide), hn _ (by decide), hn _ (by decide)⟩
  unfold scanStart
  rw [if_neg (by simp [hw]), if_neg (hn _ (by decide)), if_neg (hn _ (by decide)), if_neg (hn _ (by decide)),
    if_neg (hn _ (by decide)), if_neg (hn _ (by decide)), if_neg (hn _ (by decide)), if_neg (hn _ (by decide)),
    if_neg (hn _ (by decide)), if_neg (hn _ (by decide)), if_neg (hn _ (by decide)), if_neg (hn _ (by decide)),
    if_pos h]

theorem steps_append (d : Doc) (a b : List Tok) :
    d.steps (a ++ b) = (d.steps a).bind fun d => d.steps b := by
  induction a generalizing d with
  | nil => rfl
  | cons t a ih =>
    simp only [List.cons_append, Doc.steps, Option.bind_assoc]
    congr 1; funext d; exact ih d

theorem Settles.word {d d' : Doc} {s : Str} {ts : List Tok} (hn : s ≠ [])
    (hs : ∀ c ∈ s, nameChar c = true) (hw : wordToks s = some ts) (h : d.steps ts = some d') :
    Settles d s d' := by
  refine ⟨.name s, d, ?_, ?_, ?_⟩
  · cases s with
    | nil => exact absurd rfl hn
    | cons c s =>
      have hc := hs c (by simp)
      have e : readFrom .start d (c :: s) = readFrom (.name [c]) d s := by
        simp [readFrom, scan, nameChar_start hc, Doc.steps]
      rw [e, scan_name d [c] s fun x hx => hs x (by simp [hx])]
      simp
  · intro c hc r
    have h1 : nameChar c = false := by
      have : ∀ c ∈ delims, nameChar c = false := by decide
      exact this c hc
    simp only [readFrom, scan, h1, hw, Option.bind_some, if_false, Bool.false_eq_true]
    cases hst : scanStart c with
    | none => rfl
    | some x => simp [steps_append, h]
  · simp [scanEnd, hw, h]

theorem stem_eq {s : Str} (h : s.getLast? ≠ some '.') : stem s = s := by
  unfold stem
  cases hs : s.reverse with
  | nil => rw [List.reverse_eq_nil_iff] at hs; simp [hs]
  | cons c r =>
    have hl : s.getLast? = some c := by rw [← List.head?_reverse, hs]; rfl
    have : (c == '.') = false := by
      rw [Bool.eq_false_iff]; intro e; exact h (by rw [hl, eq_of_beq e])
    rw [List.dropWhile_cons, this]
    simp only [if_false, Bool.false_eq_true]
    rw [← hs, List.reverse_reverse]

theorem wordToks_eq {s : Str} {t : Tok} (hn : s ≠ []) (hd : s.getLast? ≠ some '.')
    (h : wordTok s = some t) : wordToks s = some [t] := by
  unfold wordToks
  rw [stem_eq hd]
  simp [hn, h]

theorem digits_no_colon {s : Str} (h : digits s = true) : ':' ∉ s := by
  intro hm
  simp [digits] at h
  have := h.2 _ hm
  revert this; decide

theorem unsigned_mem {s : Str} {c : Char} (hc : c ≠ '+') (hc' : c ≠ '-') : c ∈ unsigned s ↔ c ∈ s := by
  unfold unsigned
  split <;> simp [hc, hc']

theorem dropWhile_mem {p : Char → Bool} {s : Str} {c : Char} (hc : p c = false) (h : c ∈ s) :
    c ∈ s.dropWhile p := by
  induction s with
  | nil => simp at h
  | cons x s ih =>
    rw [List.dropWhile_cons]
    split
    · rename_i hx
      rcases List.mem_cons.1 h with rfl | h
      · rw [hc] at hx; cases hx
      · exact ih h
    · exact h

theorem isPoint_no_colon {s : Str} (h : isPoint s = true) : ':' ∉ s := by
  intro hm
  simp only [isPoint, Bool.and_eq_true, beq_iff_eq] at h
  have h1 := dropWhile_mem (p := digit) (by decide) hm
  have h2 := digits_no_colon h.2
  cases hd : s.dropWhile digit with
  | nil => rw [hd] at h1; simp at h1
  | cons x r =>
    rw [hd] at h h1 h2
    simp at h
    simp at h2
    rcases List.mem_cons.1 h1 with e | e
    · rw [h.1] at e; cases e
    · exact h2 e

theorem isExponential_no_colon {s : Str} (h : isExponential s = true) : ':' ∉ s := by
  intro hm
  simp only [isExponential, Bool.and_eq_true, Bool.or_eq_true, beq_iff_eq] at h
  obtain ⟨⟨he, hd⟩, hk⟩ := h
  rw [← List.takeWhile_append_dropWhile (p := fun c => !(str! "eE").contains c) (l := s)] at hm
  rcases List.mem_append.1 hm with hm | hm
  · rcases hk with (h | h) | h
    · exact digits_no_colon h hm
    · exact isPoint_no_colon h hm
    · have h1 := digits_no_colon h.2
      generalize hms : List.takeWhile (fun c => !(str! "eE").contains c) s = m at *
      obtain ⟨u, hu⟩ := List.getLast?_eq_some_iff.1 h.1
      rw [hu, List.dropLast_concat] at h1
      rw [hu] at hm
      rcases List.mem_append.1 hm with hm | hm
      · exact h1 hm
      · simp at hm
  · have h1 := digits_no_colon hd
    rw [unsigned_mem (by decide) (by decide)] at h1
    have hhead := List.head?_dropWhile_not (fun c => !(str! "eE").contains c) s
    generalize hms : List.dropWhile (fun c => !(str! "eE").contains c) s = m at *
    cases m with
    | nil => simp at hm
    | cons x r =>
      simp at h1 hhead
      rcases List.mem_cons.1 hm with e | e
      · rw [← e] at hhead; revert hhead; decide
      · exact h1 e

theorem bareType_colon {s : Str} (h : ':' ∈ s) : bareType s = none := by
  unfold bareType
  rw [if_neg, if_neg, if_neg, if_neg]
  · intro e; exact isExponential_no_colon e ((unsigned_mem (by decide) (by decide)).2 h)
  · intro e; exact isPoint_no_colon e ((unsigned_mem (by decide) (by decide)).2 h)
  · intro e; exact digits_no_colon e ((unsigned_mem (by decide) (by decide)).2 h)
  · rintro (rfl | rfl) <;> revert h <;> decide

theorem wordTok_colon {s : Str} (h : ':' ∈ s) : wordTok s = colonTok s := by
  have hc : ':' ∈ s.map Char.toLower := List.mem_map.2 ⟨':', h, by decide⟩
  unfold wordTok
  rw [if_neg (by rintro rfl; revert h; decide), bareType_colon h]
  simp only
  rw [if_neg (by intro e; rw [e] at hc; revert hc; decide),
    if_neg (by intro e; rw [e] at hc; revert hc; decide)]

theorem cutAt_colon {p l : Str} (h : ':' ∉ p) : cutAt (str! ":") (p ++ ':' :: l) = (p, ':' :: l) := by
  have h1 : ∀ x ∈ p, (!(str! ":").contains x) = true := by
    intro x hx
    have : x ≠ ':' := by rintro rfl; exact h hx
    simp [this]
  unfold cutAt
  rw [List.takeWhile_append_of_pos h1, List.dropWhile_append_of_pos h1]
  simp

theorem isPrefix_chars {p : Str} (h : isPrefix p = true) :
    (∀ c ∈ p, nameChar c = true) ∧ ':' ∉ p ∧ p.head? ≠ some '_' := by
  cases p with
  | nil => simp
  | cons c p =>
    simp only [isPrefix, List.isEmpty_cons, Bool.false_or, dotted, Bool.and_eq_true, List.all_eq_true] at h
    obtain ⟨⟨h1, h2⟩, -⟩ := h
    have hb : pnChar c = true := by simp [pnChar, pnU, h1]
    refine ⟨?_, ?_, ?_⟩
    · intro x hx
      rcases List.mem_cons.1 hx with rfl | hx
      · simp [nameChar, hb]
      · have := h2 x hx
        simp only [Bool.or_eq_true, beq_iff_eq] at this
        rcases this with h | rfl
        · simp [nameChar, h]
        · decide
    · intro hm
      rcases List.mem_cons.1 hm with rfl | hm
      · revert h1; decide
      · have := h2 _ hm; revert this; decide
    · intro e
      simp at e
      subst e
      revert h1; decide

theorem Settles.pname {d d' : Doc} {p l : Str} (hp : isPrefix p = true) (hl : isLocal l = true)
    (h : d.step (.pname p l) = some d') : Settles d (p ++ ':' :: l) d' := by
  obtain ⟨h1, h2, h3⟩ := isPrefix_chars hp
  have hlc : ∀ c ∈ l, nameChar c = true := by
    cases l with
    | nil => simp
    | cons c l =>
      simp only [isLocal, Bool.and_eq_true, List.all_eq_true] at hl
      obtain ⟨⟨hf, hr⟩, -⟩ := hl
      intro x hx
      rcases List.mem_cons.1 hx with rfl | hx
      · simp only [Bool.or_eq_true, beq_iff_eq] at hf
        rcases hf with (hf | rfl) | hf
        · simp [nameChar, pnChar, hf]
        · decide
        · simp [nameChar, pnChar, hf]
      · have := hr x hx
        simp only [Bool.or_eq_true, beq_iff_eq] at this
        rcases this with (h | rfl) | rfl
        · simp [nameChar, h]
        · decide
        · decide
  refine Settles.word (ts := [.pname p l]) (by simp) ?_ ?_ (by simp [Doc.steps, h])
  · intro c hc
    rcases List.mem_append.1 hc with hc | hc
    · exact h1 c hc
    · rcases List.mem_cons.1 hc with rfl | hc
      · decide
      · exact hlc c hc
  · refine wordToks_eq (by simp) ?_ ?_
    · rw [List.getLast?_append]
      cases l with
      | nil => simp
      | cons c l =>
        simp only [isLocal, Bool.and_eq_true, bne_iff_ne] at hl
        have h4 : (':' :: c :: l).getLast? = (c :: l).getLast? := by simp [List.getLast?_cons_cons]
        rw [h4]
        cases l with
        | nil =>
          simp
          rintro rfl
          have := hl.1.1
          revert this; decide
        | cons x l =>
          rw [List.getLast?_cons_cons]
          have := hl.2
          cases hg : (x :: l).getLast? with
          | none => simp at hg
          | some y => rw [hg] at this; simpa using this
    · rw [wordTok_colon (by simp)]
      have hcut := cutAt_colon (l := l) h2
      unfold colonTok
      rw [if_neg]
      · simp only [hcut, hp, hl, Bool.and_self, if_true]
      · intro e
        cases p with
        | nil => simp at e
        | cons c p =>
          simp at e
          exact h3 (by simp [e.1])

theorem isLabel_chars {l : Str} (h : isLabel l = true) :
    (∀ c ∈ l, nameChar c = true) ∧ l.getLast? ≠ some '.' ∧ l ≠ [] := by
  cases l with
  | nil => simp [isLabel, dotted] at h
  | cons c l =>
    simp only [isLabel, dotted, Bool.and_eq_true, List.all_eq_true, bne_iff_ne] at h
    obtain ⟨⟨h1, h2⟩, h3⟩ := h
    have hc : pnChar c = true := by
      simp only [Bool.or_eq_true] at h1
      rcases h1 with h1 | h1 <;> simp [pnChar, h1]
    refine ⟨?_, ?_, by simp⟩
    · intro x hx
      rcases List.mem_cons.1 hx with rfl | hx
      · simp [nameChar, hc]
      · have := h2 x hx
        simp only [Bool.or_eq_true, beq_iff_eq] at this
        rcases this with h | rfl
        · simp [nameChar, h]
        · decide
    · cases l with
      | nil =>
        simp
        rintro rfl
        revert h1; decide
      | cons x l => rw [List.getLast?_cons_cons]; exact h3

theorem Settles.blank {d d' : Doc} {l : Str} (hl : isLabel l = true)
    (h : d.step (.blank l) = some d') : Settles d ('_' :: ':' :: l) d' := by
  obtain ⟨h1, h2, h3⟩ := isLabel_chars hl
  refine Settles.word (ts := [.blank l]) (by simp) ?_ ?_ (by simp [Doc.steps, h])
  · intro c hc
    simp only [List.mem_cons] at hc
    rcases hc with rfl | rfl | hc
    · decide
    · decide
    · exact h1 c hc
  · refine wordToks_eq (by simp) ?_ ?_
    · cases l with
      | nil => exact absurd rfl h3
      | cons c l => simpa [List.getLast?_cons_cons] using h2
    · rw [wordTok_colon (by simp)]
      simp [colonTok, hl]

theorem Settles.a {d d' : Doc} (h : d.step .a = some d') : Settles d (str! "a") d' :=
  Settles.word (ts := [.a]) (by simp) (by decide) (by decide +kernel) (by simp [Doc.steps, h])

/-! ### Strings -/

theorem readFrom_cons (m : Mode) (d : Doc) (c : Char) (s : Str) :
    readFrom m d (c :: s) = (scan m c).bind fun r => (d.steps r.1).bind fun d => readFrom r.2 d s := rfl

theorem scan_char {pr : Char → Bool} {c : Char} (h : TurtleChar pr c) (d : Doc) (acc : Str) :
    readFrom (.str acc) d (escapeChar pr c) = some (.str (acc ++ [c]), d) := by
  have key : ∀ (x y : Char), x ≠ 'u' → x ≠ 'U' → echar x = some y →
      readFrom (.str acc) d ['\\', x] = some (.str (acc ++ [y]), d) := by
    intro x y h1 h2 h3
    simp [readFrom, scan, Doc.steps, h1, h2, h3]
  by_cases hs : c ∈ (str! "\t\r\n\"\\")
  · simp only [List.mem_cons, List.not_mem_nil, or_false] at hs
    rcases hs with rfl | rfl | rfl | rfl | rfl
    · exact key 't' '\t' (by decide) (by decide) (by decide)
    · exact key 'r' '\r' (by decide) (by decide) (by decide)
    · exact key 'n' '\n' (by decide) (by decide) (by decide)
    · exact key '"' '"' (by decide) (by decide) (by decide)
    · exact key '\\' '\\' (by decide) (by decide) (by decide)
  · rcases h with h | ⟨h0, hp⟩
    · exact absurd h hs
    simp only [List.mem_cons, List.not_mem_nil, or_false, not_or] at hs
    obtain ⟨h1, h2, h3, h4, h5⟩ := hs
    simp [escapeChar, h0, h1, h2, h3, h4, h5, hp, readFrom, scan, Doc.steps]

theorem scan_string {pr : Char → Bool} {s : Str} (h : ∀ c ∈ s, TurtleChar pr c) (d : Doc) (acc : Str) :
    readFrom (.str acc) d (escapeString pr s) = some (.str (acc ++ s), d) := by
  induction s generalizing acc with
  | nil => simp [escapeString, readFrom]
  | cons c s ih =>
    have := ih (fun x hx => h x (by simp [hx])) (acc ++ [c])
    simp only [escapeString, List.flatMap_cons] at this ⊢
    rw [readFrom_append, scan_char (h c (by simp))]
    simp only [Option.bind_some]
    rw [this]; simp

/-- The string in quotes, up to the last one. -/
theorem read_quoted {pr : Char → Bool} {s : Str} (h : ∀ c ∈ s, TurtleChar pr c) (d : Doc) (r : Str) :
    readFrom .start d ('"' :: escapeString pr s ++ r) = readFrom (.str s) d r := by
  have e : ∀ t, readFrom .start d ('"' :: t) = readFrom (.str []) d t := by
    intro t
    simp [readFrom, scan, show scanStart '"' = some ([], .str []) from rfl, Doc.steps]
  rw [List.cons_append, e, readFrom_append, scan_string h]
  simp

/-- The quote that ends a string, and what follows it. -/
theorem read_close {d d' : Doc} {s : Str} (h : d.step (.string s) = some d') {c : Char} (hc : c ≠ '"')
    (r : Str) : readFrom (.str s) d ('"' :: c :: r) = readFrom .start d' (c :: r) := by
  by_cases hs : s = []
  · subst hs
    simp only [readFrom, scan, if_true, Option.bind_some, Doc.steps, hc, if_false]
    cases scanStart c with
    | none => rfl
    | some x => simp [Doc.steps, h]
  · simp [readFrom, scan, hs, Doc.steps, h]

theorem Settles.string {pr : Char → Bool} {d d' : Doc} {s : Str} (hs : ∀ c ∈ s, TurtleChar pr c)
    (h : d.step (.string s) = some d') : Settles d ('"' :: escapeString pr s ++ ['"']) d' := by
  by_cases hn : s = []
  · subst hn
    refine ⟨.empty, d, by rw [read_quoted hs]; simp [readFrom, scan, Doc.steps], ?_, by simp [scanEnd, Doc.steps, h]⟩
    intro c hc r
    have hq : c ≠ '"' := by rintro rfl; revert hc; decide
    simp only [readFrom, scan, hq, if_false]
    cases scanStart c with
    | none => rfl
    | some x => simp [Doc.steps, h]
  · refine Reads.settles ?_
    unfold Reads
    rw [read_quoted hs]
    simp [readFrom, scan, hn, Doc.steps, h]

theorem Settles.string_then {pr : Char → Bool} {d d₁ d' : Doc} {s t : Str} {c : Char}
    (hs : ∀ c ∈ s, TurtleChar pr c) (h : d.step (.string s) = some d₁) (hc : c ≠ '"')
    (h' : Settles d₁ (c :: t) d') : Settles d ('"' :: escapeString pr s ++ '"' :: c :: t) d' := by
  obtain ⟨m, d₂, h1, h2, h3⟩ := h'
  exact ⟨m, d₂, by rw [read_quoted hs, read_close h hc, h1], h2, h3⟩

/-! ### Languages and types -/

theorem splitDash_mem {s : Str} {c : Char} (h : c ∈ s) : c = '-' ∨ ∃ w ∈ isTag.splitDash s, c ∈ w := by
  induction s with
  | nil => simp at h
  | cons x s ih =>
    unfold isTag.splitDash
    rcases List.mem_cons.1 h with rfl | h
    · by_cases hx : c = '-'
      · exact .inl hx
      · right
        rw [if_neg hx]
        split <;> simp
    · rcases ih h with h | ⟨w, hw, hc⟩
      · exact .inl h
      · right
        split
        · exact ⟨w, by simp [hw], hc⟩
        · split
          · rename_i e; rw [e] at hw; simp at hw
          · rename_i v ws e
            rw [e] at hw
            rcases List.mem_cons.1 hw with rfl | hw
            · exact ⟨x :: w, by simp, by simp [hc]⟩
            · exact ⟨w, by simp [hw], hc⟩

theorem isTag_chars {s : Str} (h : isTag s = true) :
    ∀ c ∈ s, (alpha c || digit c || c == '-') = true := by
  intro c hc
  simp only [isTag, Bool.and_eq_true, List.all_eq_true] at h
  rcases splitDash_mem hc with rfl | ⟨w, hw, hcw⟩
  · decide
  · cases hs : isTag.splitDash s with
    | nil => rw [hs] at hw; simp at hw
    | cons v ws =>
      rw [hs] at h hw
      simp at h
      rcases List.mem_cons.1 hw with rfl | hw
      · have := h.1.2 c hcw
        simp [this]
      · have := (h.2 w hw).2 c hcw
        rcases this with h | h <;> simp [h]

theorem scan_at (d : Doc) (acc s : Str) (h : ∀ c ∈ s, (alpha c || digit c || c == '-') = true) :
    readFrom (.at acc) d s = some (.at (acc ++ s), d) := by
  induction s generalizing acc with
  | nil => simp [readFrom]
  | cons c s ih =>
    have hc := h c (by simp)
    rw [readFrom_cons, scan, if_pos hc]
    simp [Doc.steps, ih (acc ++ [c]) fun x hx => h x (by simp [hx])]

theorem Settles.at {d d' : Doc} {s : Str} (hs : isTag s = true) (h : d.step (.at s) = some d') :
    Settles d ('@' :: s) d' := by
  refine ⟨.at s, d, ?_, ?_, ?_⟩
  · have e : readFrom .start d ('@' :: s) = readFrom (.at []) d s := by
      simp [readFrom, scan, show scanStart '@' = some ([], .at []) from rfl, Doc.steps]
    rw [e, scan_at d [] s (isTag_chars hs)]
    simp
  · intro c hc r
    have h1 : (alpha c || digit c || c == '-') = false := by
      have : ∀ c ∈ delims, (alpha c || digit c || c == '-') = false := by decide
      exact this c hc
    have e : scan (.at s) c = (scanStart c).map fun r => (.at s :: r.1, r.2) := by
      rw [scan, if_neg (by simp only [h1, Bool.false_eq_true, not_false_eq_true]), if_pos hs]
    rw [readFrom_cons, readFrom_cons, e, scan]
    cases scanStart c with
    | none => rfl
    | some x => simp [Doc.steps, h]
  · simp [scanEnd, hs, Doc.steps, h]

theorem Reads.type {d d' : Doc} (h : d.step .type = some d') : Reads d (str! "^^") d' := by
  simp [Reads, readFrom, scan, show scanStart '^' = some ([], .caret) from rfl, Doc.steps, h]

end Rdftk
