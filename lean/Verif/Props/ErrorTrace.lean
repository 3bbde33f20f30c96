import Verif.Spec.ErrorTrace
import Verif.Lemmas.Literal

/-! C147, C148: the traces and the messages of errors. -/

namespace Rdftk

/-! ### C147 -/

/-- C147: the trace of an error is a line for each message. -/
def C147_statement : Prop := ∀ pr e, errorTrace pr e = Spec.numbered (e.chain pr) 1

theorem traceOne_eq (ms : List Str) (n : Nat) : traceOne ms n = Spec.numbered ms n ++ List.replicate ms.length '\n' := by
  induction ms generalizing n with
  | nil => rfl
  | cons m ms ih =>
    rw [traceOne, ih]
    simp only [Spec.numbered, List.zipIdx_cons, List.flatMap_cons, List.length_cons, List.replicate_succ', List.append_assoc]

/-- C147, exactly: behind the lines there are as many empty lines as there are messages. -/
theorem C147_exact (pr : Char → Bool) (e : CoreError) :
    errorTrace pr e = Spec.numbered (e.chain pr) 1 ++ List.replicate (e.chain pr).length '\n' := traceOne_eq _ _

/-- C147 fails for every error. -/
theorem C147_fails_all (pr : Char → Bool) (e : CoreError) : errorTrace pr e ≠ Spec.numbered (e.chain pr) 1 := fun h => by
  rw [C147_exact] at h
  have := congrArg List.length h
  simp [CoreError.chain] at this

/-- C147 fails. -/
theorem C147_fails : ¬C147_statement := fun h => C147_fails_all (fun _ => true) .invalidMatch (h _ _)

/-- C147, the causes: an error made of another names it as its source unless a tokenizer failed. -/
theorem C147_source_iff (e : CoreError) : e.source = Spec.cause e ↔ ¬∃ r s, e = .tokenizer r s := by
  cases e <;> simp [CoreError.source, Spec.cause]

/-- C147 for a tokenizer: the trace is one message, whatever the causes of the failure. -/
theorem C147_fails_tokenizer (pr : Char → Bool) (r : Str) (s : Foreign) :
    errorTrace pr (.tokenizer r s) = str! "1. " ++ (str! "The tokenizer for " ++ r ++ str! " generated an error: " ++ s.msg) ++ str! "\n\n" := by
  simp [errorTrace, CoreError.chain, CoreError.source, traceOne, CoreError.display, Nat.toDigits, Nat.toDigitsCore, Nat.digitChar]

/-- C147 for the others that are made of an error: the messages are its own, that of the error and those of the causes of that. -/
theorem C147_chain (pr : Char → Bool) (e : CoreError) (s : Foreign) (h : e.source = some s) :
    e.chain pr = e.display pr :: s.msg :: s.causes := by
  simp [CoreError.chain, h]

theorem line_cancel {a b x y : Str} (ha : '\n' ∉ a) (hb : '\n' ∉ b) (e : a ++ '\n' :: x = b ++ '\n' :: y) : a = b ∧ x = y := by
  induction a generalizing b with
  | nil =>
    cases b with
    | nil => simpa using e
    | cons c b => simp at e; exact absurd e.1.symm (by intro hc; simp [hc] at hb)
  | cons c a ih =>
    cases b with
    | nil => simp at e; exact absurd e.1 (by intro hc; simp [hc] at ha)
    | cons d b =>
      simp only [List.cons_append, List.cons.injEq] at e
      have := ih (fun h => ha (List.mem_cons_of_mem _ h)) (fun h => hb (List.mem_cons_of_mem _ h)) e.2
      exact ⟨by rw [e.1, this.1], this.2⟩

theorem digits_first (n : Nat) : ∃ c t, Nat.toDigits 10 n = c :: t ∧ c ≠ '\n' := by
  cases h : Nat.toDigits 10 n with
  | nil => exact absurd h Nat.toDigits_ne_nil
  | cons c t =>
    refine ⟨c, t, rfl, fun hc => ?_⟩
    obtain ⟨d, hd, e⟩ := toDigits_mem (b := 10) (n := n) (c := c) (by decide) (by rw [h]; exact List.mem_cons_self)
    rw [hc] at e
    exact absurd e (by revert d; decide)

theorem numbered_cons (m : Str) (ms : List Str) (n : Nat) :
    Spec.numbered (m :: ms) n = Nat.toDigits 10 n ++ (str! ". " ++ (m ++ '\n' :: Spec.numbered ms (n + 1))) := by
  simp [Spec.numbered, List.zipIdx_cons]

theorem replicate_not_numbered (k : Nat) (m : Str) (ms : List Str) (n : Nat) (x : Str) :
    List.replicate k '\n' ≠ Spec.numbered (m :: ms) n ++ x := by
  obtain ⟨c, t, e, hc⟩ := digits_first n
  rw [numbered_cons, e]
  intro h
  cases k with
  | zero => simp at h
  | succ k => simp [List.replicate_succ] at h; exact hc h.1.symm

theorem numbered_inj (ms ns : List Str) (n k l : Nat) (hm : ∀ m ∈ ms, '\n' ∉ m) (hn : ∀ m ∈ ns, '\n' ∉ m)
    (e : Spec.numbered ms n ++ List.replicate k '\n' = Spec.numbered ns n ++ List.replicate l '\n') : ms = ns := by
  induction ms generalizing ns n with
  | nil =>
    cases ns with
    | nil => rfl
    | cons b ns => exact absurd e (replicate_not_numbered k b ns n _)
  | cons a ms ih =>
    cases ns with
    | nil => exact absurd e.symm (replicate_not_numbered l a ms n _)
    | cons b ns =>
      rw [numbered_cons, numbered_cons] at e
      simp only [List.append_assoc, List.cons_append, List.append_cancel_left_eq] at e
      simp only [List.nil_append, List.cons.injEq, true_and] at e
      obtain ⟨h1, h2⟩ := line_cancel (hm a List.mem_cons_self) (hn b List.mem_cons_self) e
      rw [h1, ih ns (n + 1) (fun m h => hm m (List.mem_cons_of_mem _ h)) (fun m h => hn m (List.mem_cons_of_mem _ h)) h2]

/-- C147: messages of one line each can be told from the trace. -/
theorem C147_unique (pr : Char → Bool) (e f : CoreError) (he : ∀ m ∈ e.chain pr, '\n' ∉ m) (hf : ∀ m ∈ f.chain pr, '\n' ∉ m)
    (h : errorTrace pr e = errorTrace pr f) : e.chain pr = f.chain pr := by
  rw [C147_exact, C147_exact] at h
  exact numbered_inj _ _ _ _ _ he hf h

/-- C147: others cannot, two errors with different numbers of causes have the same trace. -/
theorem C147_fails_unique : ∃ e f : CoreError, ∀ pr, errorTrace pr e = errorTrace pr f ∧ (e.chain pr).length ≠ (f.chain pr).length :=
  ⟨.io ⟨str! "a", [str! "b", str! "c"]⟩, .io ⟨str! "a", [str! "b\n4. c\n"]⟩, fun _ => ⟨rfl, by simp [CoreError.chain, CoreError.source]⟩⟩

/-! ### C148 -/

/-- C148: the kind of an error can be told from its message. -/
theorem C148_message (pr : Char → Bool) (e : CoreError) : Spec.kindOf (e.display pr) = Spec.kind e := by
  cases e with
  | invalidFromStr v n =>
    have : (CoreError.display pr (.invalidFromStr v n)).reverse.take 2 = str! ".'" := by simp [CoreError.display]
    show (if _ then 4 else _) = 4
    rw [if_pos this]
  | invalidBlankNodeName n =>
    have h1 : (CoreError.display pr (.invalidBlankNodeName n)).reverse.take 2 = str! ".e" := by simp [CoreError.display]
    have h2 : (CoreError.display pr (.invalidBlankNodeName n)).reverse.take 5 = str! ".eman" := by simp [CoreError.display]
    show (if _ then 4 else if _ then 7 else 9) = 7
    rw [if_neg (by rw [h1]; decide), if_pos h2]
  | invalidQName n =>
    have h1 : (CoreError.display pr (.invalidQName n)).reverse.take 2 = str! ".e" := by simp [CoreError.display]
    have h2 : (CoreError.display pr (.invalidQName n)).reverse.take 5 = str! ".emaN" := by simp [CoreError.display]
    show (if _ then 4 else if _ then 7 else 9) = 9
    rw [if_neg (by rw [h1]; decide), if_neg (by rw [h2]; decide)]
  | _ => rfl

/-- C148: errors with the same message are of the same kind. -/
theorem C148_kind (pr : Char → Bool) (e f : CoreError) (h : e.display pr = f.display pr) : Spec.kind e = Spec.kind f := by
  rw [← C148_message pr e, ← C148_message pr f, h]

/-- C148: the fields of an error cannot be told from its message in general. -/
theorem C148_fields : ∃ e f : CoreError, e ≠ f ∧ ∀ pr, e.display pr = f.display pr :=
  ⟨.parserExpected (str! "f") (str! "a` in function `b"), .parserExpected (str! "b` in function `f") (str! "a"), by simp, fun _ => rfl⟩

end Rdftk
