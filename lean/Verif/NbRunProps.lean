import Verif.NbRun
import Mathlib.Data.List.Forall2
import Mathlib.Data.List.TakeWhile
import Mathlib.Tactic.Common

/-!
# Variables of notebooks from the command line (C123)
-/

namespace Verif

/-! ## Specification -/

/-- A character in a string of JSON (other control characters do not occur) -/
def jsonChar (c : Char) : List Char := if c = '"' then ['\\', '"'] else if c = '\\' then ['\\', '\\'] else if c = '\t' then ['\\', 't'] else [c]

/-- A line of a notebook file: a line of Python that is not the last one of its cell, the last one, or anything else -/
inductive NbLine where
  | source (indent : ℕ) (src : List Char)
  | last (indent : ℕ) (src : List Char)
  | other (text : List Char)

/-- The text of the line in the file, as Jupyter writes it -/
def NbLine.text : NbLine → List Char
  | .source n src => List.replicate n ' ' ++ '"' :: src.flatMap jsonChar ++ "\\n\",".toList
  | .last n src => List.replicate n ' ' ++ '"' :: src.flatMap jsonChar ++ "\"".toList
  | .other t => t

/-- The line of Python assigns a value to the variable, from its first column on -/
def Assigns (var src : List Char) : Prop := ∃ k rest, src = var ++ List.replicate k ' ' ++ '=' :: rest

/-- An assignment to the variable occurs in a line right behind a quotation mark -/
def Quotes (var src : List Char) : Prop := ∃ a b, src = a ++ '"' :: b ∧ Assigns var b

/-- The variable is assigned in a line that is not the last one of its cell -/
def NbLine.Sets (var : List Char) : NbLine → Prop
  | .source _ src => Assigns var src
  | _ => False

/-- Nothing in the line misleads the script -/
def NbLine.Clear (var : List Char) : NbLine → Prop
  | .source _ src => ¬Quotes var src
  | .last _ src => ¬['\\', 'n'] <:+ src
  | .other t => ¬['\\', 'n', '"'] <:+: t

/-- The line with another value of the variable -/
def NbLine.withValue (var val : List Char) : NbLine → NbLine
  | .source n _ => .source n (var ++ '=' :: val)
  | l => l

/-- A name of Python without letters beyond ASCII -/
def NbName (var : List Char) : Prop := var ≠ [] ∧ ∀ c ∈ var, c.isAlphanum = true ∨ c = '_'

/-- A value that the script passes on: no characters with a meaning to it, single spaces only -/
def NbValue (val : List Char) : Prop :=
  (∀ c ∈ val, c ∉ ['|', '&', '\\', '"', '=', '\n', '\t']) ∧ ¬[' ', ' '] <:+: val ∧ ¬[' '] <:+ val

/-- The line after the arguments: the last one for its variable counts -/
def NbLine.After (args : List (List Char × List Char)) (l l' : NbLine) : Prop :=
  (∃ before var val behind, args = before ++ (var, val) :: behind ∧ l.Sets var ∧ (∀ a ∈ behind, ¬l.Sets a.1) ∧ l' = l.withValue var val) ∨
  (∀ a ∈ args, ¬l.Sets a.1) ∧ l' = l

/-- `var=val` -/
def nbArgument (a : List Char × List Char) : List Char := a.1 ++ '=' :: a.2

namespace NbRun

/-! ## sed -/

theorem word_ne {c : Char} (h : c.isAlphanum = true ∨ c = '_') : c ≠ '"' ∧ c ≠ '\\' ∧ c ≠ '=' ∧ c ≠ ' ' ∧ c ≠ '\t' ∧ c ≠ ',' := by
  refine ⟨?_, ?_, ?_, ?_, ?_, ?_⟩ <;> · rintro rfl; revert h; decide

theorem afterLast_infix {l r : List Char} (h : afterLast l = some r) : ['\\', 'n', '"'] <:+: l := by
  induction l generalizing r with
  | nil => simp [afterLast] at h
  | cons c l ih =>
    unfold afterLast at h
    cases e : afterLast l with
    | some x => exact (ih e).trans (List.infix_cons List.infix_rfl)
    | none =>
      rw [e] at h
      by_cases p : ['\\', 'n', '"'] <+: c :: l
      · exact p.isInfix
      · simp [p] at h

theorem afterLast_none {l r : List Char} (h : afterLast l = some r) : afterLast r = none := by
  induction l generalizing r with
  | nil => simp [afterLast] at h
  | cons c l ih =>
    unfold afterLast at h
    cases e : afterLast l with
    | some x => rw [e] at h; obtain rfl := Option.some.inj h; exact ih e
    | none =>
      rw [e] at h
      by_cases p : ['\\', 'n', '"'] <+: c :: l
      · simp only [p, if_true] at h
        obtain rfl := Option.some.inj h
        have : ∀ (k : ℕ) (l : List Char), afterLast l = none → afterLast (l.drop k) = none := by
          intro k
          induction k with
          | zero => intro l h; simpa using h
          | succ k ihk =>
            intro l h
            cases l with
            | nil => simpa using h
            | cons d l =>
              rw [List.drop_succ_cons]
              apply ihk
              unfold afterLast at h
              cases e : afterLast l with
              | none => rfl
              | some x => rw [e] at h; simp at h
        exact this 2 l e
      · simp [p] at h

theorem afterLast_append (x : List Char) : afterLast (x ++ "\\n\",".toList) = some [','] := by
  induction x with
  | nil => decide
  | cons c x ih =>
    rw [List.cons_append]
    unfold afterLast
    rw [ih]

theorem nbMatch_some {var t r : List Char} (h : nbMatch var t = some r) :
    ∃ bl x, t = '"' :: (var ++ bl ++ '=' :: x) ∧ (∀ c ∈ bl, nbBlank c = true) ∧ afterLast x = some r := by
  unfold nbMatch at h
  by_cases p : '"' :: var <+: t
  · rw [if_pos p] at h
    obtain ⟨u, rfl⟩ := p
    have e : ('"' :: var ++ u).drop (var.length + 1) = u := by simp
    rw [e] at h
    cases d : u.dropWhile nbBlank with
    | nil => rw [d] at h; simp at h
    | cons c x =>
      rw [d] at h
      by_cases hc : c = '='
      · subst hc
        refine ⟨u.takeWhile nbBlank, x, ?_, fun c hc => List.mem_takeWhile_imp hc, h⟩
        rw [← d, List.append_assoc, List.takeWhile_append_dropWhile, List.cons_append]
      · revert h
        split
        · rename_i h1; exact absurd (List.cons.inj h1).1 hc
        · simp
  · rw [if_neg p] at h; simp at h

theorem nbMatch_eq (var bl x : List Char) (h : ∀ c ∈ bl, nbBlank c = true) : nbMatch var ('"' :: (var ++ bl ++ '=' :: x)) = afterLast x := by
  unfold nbMatch
  have p : '"' :: var <+: '"' :: (var ++ bl ++ '=' :: x) := ⟨bl ++ '=' :: x, by simp⟩
  rw [if_pos p]
  have e : ('"' :: (var ++ bl ++ '=' :: x)).drop (var.length + 1) = bl ++ '=' :: x := by simp
  have d : (bl ++ '=' :: x).dropWhile nbBlank = '=' :: x := by
    rw [List.dropWhile_append, List.dropWhile_eq_nil_iff.2 h]
    rfl
  rw [e, d]
  split
  · rename_i y h1; rw [(List.cons.inj h1).2]
  · rename_i h1; exact absurd rfl (h1 x)

theorem nbMatch_quote {var : List Char} {c : Char} {l : List Char} (h : c ≠ '"') : nbMatch var (c :: l) = none := by
  cases e : nbMatch var (c :: l) with
  | none => rfl
  | some r =>
    obtain ⟨bl, x, hx, -⟩ := nbMatch_some e
    exact absurd (List.cons.inj hx).1 h

/-- no match anywhere: nothing changes -/
theorem nbSed_same {var val l : List Char} (h : ∀ a b, l = a ++ b → nbMatch var b = none) : nbSed var val l = l := by
  induction l with
  | nil => rfl
  | cons c l ih =>
    unfold nbSed
    rw [h [] (c :: l) rfl]
    dsimp only
    rw [ih fun a b e => h (c :: a) b (by rw [e]; rfl)]

theorem nbSed_spaces (var val : List Char) (n : ℕ) (l : List Char) : nbSed var val (List.replicate n ' ' ++ l) = List.replicate n ' ' ++ nbSed var val l := by
  induction n with
  | zero => rfl
  | succ n ih =>
    rw [List.replicate_succ, List.cons_append, nbSed, nbMatch_quote (by decide)]
    dsimp only
    rw [ih]
    rfl

/-! ## JSON -/

theorem json_plain {w : List Char} (h : ∀ c ∈ w, c ≠ '"' ∧ c ≠ '\\' ∧ c ≠ '\t') : w.flatMap jsonChar = w := by
  induction w with
  | nil => rfl
  | cons c w ih =>
    have hc := h c List.mem_cons_self
    rw [List.flatMap_cons, ih fun d hd => h d (List.mem_cons_of_mem _ hd)]
    simp [jsonChar, hc]

/-- plain text at the beginning of a string of JSON is text of the string -/
theorem json_prefix {w src tail x : List Char} (hw : ∀ c ∈ w, c ≠ '"' ∧ c ≠ '\\') (ht : ∃ d u, tail = d :: u ∧ (d = '"' ∨ d = '\\')) (h : src.flatMap jsonChar ++ tail = w ++ x) :
    ∃ s, src = w ++ s ∧ x = s.flatMap jsonChar ++ tail ∧ ∀ c ∈ w, c ≠ '\t' := by
  induction w generalizing src with
  | nil => exact ⟨src, rfl, by simpa using h.symm, by simp⟩
  | cons a w ih =>
    have ha := hw a List.mem_cons_self
    cases src with
    | nil =>
      obtain ⟨d, u, rfl, hd⟩ := ht
      simp only [List.flatMap_nil, List.nil_append, List.cons_append] at h
      have := (List.cons.inj h).1
      subst this
      exact absurd hd (by tauto)
    | cons c s =>
      rw [List.flatMap_cons, List.append_assoc] at h
      by_cases c1 : c = '"'
      · subst c1
        have := (List.cons.inj (show '\\' :: ('"' :: (s.flatMap jsonChar ++ tail)) = a :: (w ++ x) from h)).1
        exact absurd this.symm ha.2
      by_cases c2 : c = '\\'
      · subst c2
        have := (List.cons.inj (show '\\' :: ('\\' :: (s.flatMap jsonChar ++ tail)) = a :: (w ++ x) from h)).1
        exact absurd this.symm ha.2
      by_cases c3 : c = '\t'
      · subst c3
        have := (List.cons.inj (show '\\' :: ('t' :: (s.flatMap jsonChar ++ tail)) = a :: (w ++ x) from h)).1
        exact absurd this.symm ha.2
      have e : jsonChar c = [c] := by simp [jsonChar, c1, c2, c3]
      rw [e] at h
      obtain ⟨rfl, h2⟩ := List.cons.inj (show c :: (s.flatMap jsonChar ++ tail) = a :: (w ++ x) from h)
      obtain ⟨s', h3, h4, h5⟩ := ih (fun d hd => hw d (List.mem_cons_of_mem _ hd)) h2
      refine ⟨s', by rw [h3]; rfl, h4, ?_⟩
      intro d hd
      rcases List.mem_cons.1 hd with rfl | hd
      · exact c3
      · exact h5 d hd

/-- a match right behind a quotation mark is an assignment -/
theorem match_assigns {var src tail r : List Char} (hv : NbName var) (ht : ∃ d u, tail = d :: u ∧ (d = '"' ∨ d = '\\'))
    (h : nbMatch var ('"' :: (src.flatMap jsonChar ++ tail)) = some r) : Assigns var src := by
  obtain ⟨bl, x, hx, hb, -⟩ := nbMatch_some h
  have hx := (List.cons.inj hx).2
  obtain ⟨s, h1, -, h3⟩ := json_prefix (w := var ++ bl ++ ['=']) (x := x) (by
    intro c hc
    rcases List.mem_append.1 hc with hc | hc
    · rcases List.mem_append.1 hc with hc | hc
      · have := word_ne (hv.2 c hc); exact ⟨this.1, this.2.1⟩
      · have := hb c hc
        constructor <;> · rintro rfl; revert this; decide
    · rw [List.mem_singleton.1 hc]; decide) ht (by rw [hx]; simp)
  have sp : bl = List.replicate bl.length ' ' := by
    refine List.eq_replicate_iff.2 ⟨rfl, fun c hc => ?_⟩
    have b1 := hb c hc
    have b2 := h3 c (by simp [hc])
    simp only [nbBlank, Bool.or_eq_true, decide_eq_true_eq] at b1
    tauto
  exact ⟨bl.length, s, by rw [← sp, h1]; simp⟩

/-- no match from anywhere in a string of JSON -/
theorem match_inside {var src tail : List Char} (hv : NbName var) (ht : ∃ d u, tail = d :: u ∧ (d = '"' ∨ d = '\\')) (h0 : ∀ a b, tail = a ++ b → nbMatch var b = none)
    (hq : ¬Quotes var src) (a b : List Char) (h : src.flatMap jsonChar ++ tail = a ++ b) : nbMatch var b = none := by
  induction src generalizing a with
  | nil => exact h0 a b (by simpa using h)
  | cons c s ih =>
    have hs : ¬Quotes var s := by
      rintro ⟨u, v, e, f⟩
      exact hq ⟨c :: u, v, by rw [e]; rfl, f⟩
    rw [List.flatMap_cons, List.append_assoc] at h
    have two : ∀ d, d ≠ '"' → jsonChar c = ['\\', d] → nbMatch var b = none := by
      intro d hd e
      rw [e] at h
      match a, h with
      | [], h => rw [← show '\\' :: (d :: (s.flatMap jsonChar ++ tail)) = b from h]; exact nbMatch_quote (by decide)
      | [_], h =>
        rw [← (List.cons.inj (show '\\' :: (d :: (s.flatMap jsonChar ++ tail)) = _ :: b from h)).2]
        exact nbMatch_quote hd
      | _ :: _ :: a, h =>
        exact ih hs a (List.cons.inj (List.cons.inj (show '\\' :: (d :: (s.flatMap jsonChar ++ tail)) = _ :: _ :: (a ++ b) from h)).2).2
    by_cases c1 : c = '"'
    · subst c1
      match a, h with
      | [], h => rw [← show '\\' :: ('"' :: (s.flatMap jsonChar ++ tail)) = b from h]; exact nbMatch_quote (by decide)
      | [_], h =>
        rw [← (List.cons.inj (show '\\' :: ('"' :: (s.flatMap jsonChar ++ tail)) = _ :: b from h)).2]
        cases e : nbMatch var ('"' :: (s.flatMap jsonChar ++ tail)) with
        | none => rfl
        | some r => exact absurd ⟨[], s, rfl, match_assigns hv ht e⟩ hq
      | _ :: _ :: a, h =>
        exact ih hs a (List.cons.inj (List.cons.inj (show '\\' :: ('"' :: (s.flatMap jsonChar ++ tail)) = _ :: _ :: (a ++ b) from h)).2).2
    by_cases c2 : c = '\\'
    · exact two '\\' (by decide) (by simp [jsonChar, c2])
    by_cases c3 : c = '\t'
    · exact two 't' (by decide) (by simp [jsonChar, c3])
    have e : jsonChar c = [c] := by simp [jsonChar, c1, c2, c3]
    rw [e] at h
    match a, h with
    | [], h => rw [← show c :: (s.flatMap jsonChar ++ tail) = b from h]; exact nbMatch_quote c1
    | _ :: a, h => exact ih hs a (List.cons.inj (show c :: (s.flatMap jsonChar ++ tail) = _ :: (a ++ b) from h)).2

theorem tail_none {var : List Char} (hv : NbName var) (a b : List Char) (h : "\\n\",".toList = a ++ b) : nbMatch var b = none := by
  have h : ['\\', 'n', '"', ','] = a ++ b := h
  have mark : nbMatch var ['"', ','] = none := by
    obtain ⟨n, w⟩ := hv
    obtain ⟨v, vs, rfl⟩ := List.exists_cons_of_ne_nil n
    cases e : nbMatch (v :: vs) ['"', ','] with
    | none => rfl
    | some r =>
      obtain ⟨bl, x, hx, -⟩ := nbMatch_some e
      have := (List.cons.inj (List.cons.inj hx).2).1
      exact absurd this.symm (word_ne (w v List.mem_cons_self)).2.2.2.2.2
  match a, h with
  | [], h => rw [← show ['\\', 'n', '"', ','] = b from h]; exact nbMatch_quote (by decide)
  | [_], h => rw [← show ['n', '"', ','] = b from (List.cons.inj h).2]; exact nbMatch_quote (by decide)
  | [_, _], h => rw [← show ['"', ','] = b from (List.cons.inj (List.cons.inj h).2).2]; exact mark
  | [_, _, _], h => rw [← show [','] = b from (List.cons.inj (List.cons.inj (List.cons.inj h).2).2).2]; exact nbMatch_quote (by decide)
  | _ :: _ :: _ :: _ :: a, h =>
    have e : [] = a ++ b := (List.cons.inj (List.cons.inj (List.cons.inj (List.cons.inj h).2).2).2).2
    rw [(List.append_eq_nil_iff.1 e.symm).2]
    rfl

theorem tail_begins : ∃ d u, "\\n\",".toList = d :: u ∧ (d = '"' ∨ d = '\\') := ⟨'\\', ['n', '"', ','], rfl, Or.inr rfl⟩

theorem sed_raw {var src : List Char} (val : List Char) (n : ℕ) (hv : NbName var) (h : Assigns var src) :
    nbSed var val (NbLine.source n src).text = List.replicate n ' ' ++ '"' :: (var ++ '=' :: val ++ "\\n\",".toList) := by
  obtain ⟨k, rest, rfl⟩ := h
  have hw : ∀ c ∈ var, c ≠ '"' ∧ c ≠ '\\' ∧ c ≠ '\t' := fun c hc => by
    have := word_ne (hv.2 c hc)
    exact ⟨this.1, this.2.1, this.2.2.2.2.1⟩
  have e1 : (var ++ List.replicate k ' ' ++ '=' :: rest).flatMap jsonChar = var ++ List.replicate k ' ' ++ '=' :: rest.flatMap jsonChar := by
    rw [List.flatMap_append, List.flatMap_cons, json_plain (w := var ++ List.replicate k ' ')]
    · rfl
    · intro c hc
      rcases List.mem_append.1 hc with hc | hc
      · exact hw c hc
      · rw [List.eq_of_mem_replicate hc]; decide
  have m : nbMatch var ('"' :: (var ++ List.replicate k ' ' ++ '=' :: rest.flatMap jsonChar ++ "\\n\",".toList)) = some [','] := by
    have := nbMatch_eq var (List.replicate k ' ') (rest.flatMap jsonChar ++ "\\n\",".toList) fun c hc => by rw [List.eq_of_mem_replicate hc]; decide
    rw [afterLast_append] at this
    rw [← this]
    congr 1
    simp
  unfold NbLine.text
  dsimp only
  rw [e1, List.append_assoc, nbSed_spaces, List.cons_append, nbSed, m]
  simp

/-- a line of a cell that assigns the variable -/
theorem sed_assigns {var val src : List Char} (n : ℕ) (hv : NbName var) (hval : ∀ c ∈ val, c ≠ '"' ∧ c ≠ '\\' ∧ c ≠ '\t') (h : Assigns var src) :
    nbSed var val (NbLine.source n src).text = (NbLine.source n (var ++ '=' :: val)).text := by
  have e2 : (var ++ '=' :: val).flatMap jsonChar = var ++ '=' :: val := by
    refine json_plain fun c hc => ?_
    rcases List.mem_append.1 hc with hc | hc
    · have := word_ne (hv.2 c hc)
      exact ⟨this.1, this.2.1, this.2.2.2.2.1⟩
    · rcases List.mem_cons.1 hc with rfl | hc
      · decide
      · exact hval c hc
  rw [sed_raw val n hv h]
  unfold NbLine.text
  dsimp only
  rw [e2]
  simp

theorem sed_other {var val src : List Char} (n : ℕ) (hv : NbName var) (hq : ¬Quotes var src) (h : ¬Assigns var src) :
    nbSed var val (NbLine.source n src).text = (NbLine.source n src).text := by
  unfold NbLine.text
  dsimp only
  rw [List.append_assoc, nbSed_spaces, List.cons_append, nbSed_same]
  intro a b e
  match a, e with
  | [], e =>
    rw [← show _ = b from e]
    cases m : nbMatch var ('"' :: (src.flatMap jsonChar ++ "\\n\",".toList)) with
    | none => rfl
    | some r => exact absurd (match_assigns hv tail_begins m) h
  | _ :: a, e => exact match_inside hv tail_begins (tail_none hv) hq a b (List.cons.inj (show _ :: _ = _ :: (a ++ b) from e)).2

theorem sed_infix {var val t : List Char} (h : ¬['\\', 'n', '"'] <:+: t) : nbSed var val t = t := by
  refine nbSed_same fun a b e => ?_
  cases m : nbMatch var b with
  | none => rfl
  | some r =>
    obtain ⟨bl, x, rfl, -, hx⟩ := nbMatch_some m
    refine absurd ((afterLast_infix hx).trans ?_) h
    exact ⟨a ++ '"' :: (var ++ bl ++ ['=']), [], by rw [e]; simp⟩

theorem json_infix {src : List Char} (h : ['\\', 'n', '"'] <:+: src.flatMap jsonChar ++ ['"']) : ['\\', 'n'] <:+ src := by
  induction src with
  | nil =>
    have := h.length_le
    simp at this
  | cons c s ih =>
    have keep : ['\\', 'n'] <:+ s → ['\\', 'n'] <:+ c :: s := fun k => k.trans (List.suffix_cons _ _)
    rw [List.flatMap_cons, List.append_assoc] at h
    by_cases c1 : c = '"'
    · subst c1
      rcases List.infix_cons_iff.1 (show _ <:+: '\\' :: ('"' :: (s.flatMap jsonChar ++ ['"'])) from h) with p | p
      · obtain ⟨u, hu⟩ := p
        exact absurd (List.cons.inj (List.cons.inj hu).2).1 (by decide)
      rcases List.infix_cons_iff.1 p with p | p
      · obtain ⟨u, hu⟩ := p
        exact absurd (List.cons.inj hu).1 (by decide)
      exact keep (ih p)
    by_cases c2 : c = '\\'
    · subst c2
      rcases List.infix_cons_iff.1 (show _ <:+: '\\' :: ('\\' :: (s.flatMap jsonChar ++ ['"'])) from h) with p | p
      · obtain ⟨u, hu⟩ := p
        exact absurd (List.cons.inj (List.cons.inj hu).2).1 (by decide)
      rcases List.infix_cons_iff.1 p with p | p
      · obtain ⟨u, hu⟩ := p
        have e := (List.cons.inj hu).2
        obtain ⟨s', rfl, h2, -⟩ := json_prefix (w := ['n']) (x := '"' :: u) (src := s) (tail := ['"']) (by simp) ⟨'"', [], rfl, Or.inl rfl⟩ (by rw [← e]; rfl)
        have : s' = [] := by
          cases s' with
          | nil => rfl
          | cons d s'' =>
            exfalso
            rw [List.flatMap_cons, List.append_assoc] at h2
            have : ∃ x y, jsonChar d = x :: y ∧ x ≠ '"' := by
              unfold jsonChar
              split
              · exact ⟨_, _, rfl, by decide⟩
              · split
                · exact ⟨_, _, rfl, by decide⟩
                · split
                  · exact ⟨_, _, rfl, by decide⟩
                  · exact ⟨_, _, rfl, by assumption⟩
            obtain ⟨x, y, e, hx⟩ := this
            rw [e] at h2
            exact hx (List.cons.inj h2).1.symm
        rw [this]
        exact List.suffix_rfl
      exact keep (ih p)
    by_cases c3 : c = '\t'
    · subst c3
      rcases List.infix_cons_iff.1 (show _ <:+: '\\' :: ('t' :: (s.flatMap jsonChar ++ ['"'])) from h) with p | p
      · obtain ⟨u, hu⟩ := p
        exact absurd (List.cons.inj (List.cons.inj hu).2).1 (by decide)
      rcases List.infix_cons_iff.1 p with p | p
      · obtain ⟨u, hu⟩ := p
        exact absurd (List.cons.inj hu).1 (by decide)
      exact keep (ih p)
    have e : jsonChar c = [c] := by simp [jsonChar, c1, c2, c3]
    rw [e] at h
    rcases List.infix_cons_iff.1 (show _ <:+: c :: (s.flatMap jsonChar ++ ['"']) from h) with p | p
    · obtain ⟨u, hu⟩ := p
      exact absurd (List.cons.inj hu).1.symm c2
    exact keep (ih p)

theorem sed_last {var val src : List Char} (n : ℕ) (h : ¬['\\', 'n'] <:+ src) : nbSed var val (NbLine.last n src).text = (NbLine.last n src).text := by
  unfold NbLine.text
  dsimp only
  rw [List.append_assoc, nbSed_spaces]
  congr 1
  refine sed_infix fun k => h (json_infix ?_)
  rcases List.infix_cons_iff.1 (show _ <:+: '"' :: (src.flatMap jsonChar ++ ['"']) from k) with p | p
  · obtain ⟨u, hu⟩ := p
    exact absurd (List.cons.inj hu).1 (by decide)
  · exact p

/-! ## Arguments -/

theorem blank_false {c : Char} (h1 : c ≠ ' ') (h2 : c ≠ '\t') : nbBlank c = false := by
  simp [nbBlank, h1, h2]

theorem echo_cons {c : Char} (s : Bool) (l : List Char) (h : nbBlank c = false) : shellEcho s false (c :: l) = c :: shellEcho true false l := by
  simp [shellEcho, h]

theorem echo_word {w : List Char} (s : Bool) (l : List Char) (h : ∀ c ∈ w, nbBlank c = false) (hw : w ≠ []) : shellEcho s false (w ++ l) = w ++ shellEcho true false l := by
  induction w generalizing s with
  | nil => exact absurd rfl hw
  | cons c w ih =>
    rw [List.cons_append, echo_cons s _ (h c List.mem_cons_self)]
    cases w with
    | nil => rfl
    | cons d w => rw [ih true (fun e he => h e (List.mem_cons_of_mem _ he)) (by simp)]; rfl

theorem echo_both {d : Char} (hd : nbBlank d = false) (r : List Char) (l : List Char) (ht : '\t' ∉ l) (h2 : ¬[' ', ' '] <:+: l) :
    shellEcho true false (l ++ d :: r) = l ++ d :: shellEcho true false r ∧
    (¬[' '] <+: l → shellEcho true true (l ++ d :: r) = ' ' :: (l ++ d :: shellEcho true false r)) := by
  induction l with
  | nil =>
    refine ⟨echo_cons true r hd, fun _ => ?_⟩
    simp [shellEcho, hd]
  | cons c l ih =>
    have ih := ih (fun h => ht (List.mem_cons_of_mem _ h)) fun h => h2 (h.trans (List.infix_cons List.infix_rfl))
    have hc : c ≠ '\t' := fun h => ht (h ▸ List.mem_cons_self)
    by_cases e : c = ' '
    · subst e
      refine ⟨?_, fun h => absurd (List.prefix_append [' '] l) h⟩
      have : ¬[' '] <+: l := by
        rintro ⟨u, rfl⟩
        exact h2 ⟨[], u, rfl⟩
      rw [List.cons_append, shellEcho, if_pos (by decide), ih.2 this]
      rfl
    · have b := blank_false e hc
      refine ⟨by rw [List.cons_append, echo_cons true _ b, ih.1]; rfl, fun _ => ?_⟩
      rw [List.cons_append, shellEcho, if_neg (by simp [b]), ih.1]
      rfl

theorem echo_end {l : List Char} (ht : '\t' ∉ l) (h2 : ¬[' ', ' '] <:+: l) (he : ¬[' '] <:+ l) : shellEcho true false l = l := by
  rcases List.eq_nil_or_concat l with rfl | ⟨u, d, rfl⟩
  · rfl
  rw [List.concat_eq_append] at *
  have hd : nbBlank d = false := by
    refine blank_false ?_ ?_
    · rintro rfl; exact he ⟨u, rfl⟩
    · rintro rfl; exact ht (by simp)
  rw [(echo_both hd [] u (fun h => ht (by simp [h])) fun h => h2 (h.trans ⟨[], [d], by simp⟩)).1]
  rfl

variable {var val : List Char}

theorem name_blank (hv : NbName var) (c : Char) (hc : c ∈ var) : nbBlank c = false := by
  have := word_ne (hv.2 c hc)
  exact blank_false this.2.2.2.1 this.2.2.2.2.1

theorem value_mem (h : NbValue val) {c : Char} (hc : c ∈ ['|', '&', '\\', '"', '=', '\n', '\t']) : c ∉ val := fun k => h.1 c k hc

theorem echo_head (hv : NbName var) (l : List Char) : shellEcho false false (var ++ '=' :: l) = var ++ '=' :: shellEcho true false l := by
  rw [echo_word false _ (name_blank hv) hv.1, echo_cons true _ (by decide)]

theorem cut_first (hv : NbName var) (l : List Char) : cutFirst (var ++ '=' :: l) = var := by
  unfold cutFirst
  rw [List.takeWhile_append_of_pos]
  · simp
  · intro c hc
    simpa using (word_ne (hv.2 c hc)).2.2.1

theorem cut_rest (hv : NbName var) (l : List Char) : cutSecond (var ++ '=' :: l) = l.takeWhile (· ≠ '=') := by
  unfold cutSecond
  rw [if_pos (by simp), List.dropWhile_append_of_pos]
  · simp
  · intro c hc
    simpa using (word_ne (hv.2 c hc)).2.2.1

theorem arg_raw (hv : NbName var) (hval : ∀ c ∈ val, c ∉ ['|', '&', '\\', '=', '\n', '\t']) (h2 : ¬[' ', ' '] <:+: val) (h3 : ¬[' '] <:+ val) (file : List (List Char)) :
    nbArg file (nbArgument (var, val)) = some (file.map (nbSed var val)) := by
  have mem : ∀ {c : Char}, c ∈ ['|', '&', '\\', '=', '\n', '\t'] → c ∉ val := fun hc k => hval _ k hc
  have e : shellEcho false false (nbArgument (var, val)) = var ++ '=' :: val := by
    unfold nbArgument
    rw [echo_head hv, echo_end (mem (by simp)) h2 h3]
  unfold nbArg
  rw [e, cut_first hv, cut_rest hv]
  have e2 : val.takeWhile (· ≠ '=') = val := by
    rw [List.takeWhile_eq_self_iff]
    intro c hc
    simp only [decide_eq_true_eq]
    rintro rfl
    exact mem (by simp) hc
  rw [e2]
  unfold nbSet
  rw [if_pos]
  refine ⟨hv.1, fun c hc => ?_, mem (by simp), mem (by simp), mem (by simp), mem (by simp)⟩
  have := hv.2 c hc
  simpa [nbWord] using this

theorem arg_set (hv : NbName var) (hval : NbValue val) (file : List (List Char)) : nbArg file (nbArgument (var, val)) = some (file.map (nbSed var val)) :=
  arg_raw hv (fun c hc k => hval.1 c hc (by simp only [List.mem_cons] at k ⊢; tauto)) hval.2.1 hval.2.2 file

theorem spaces_inj {n m : ℕ} {u v : List Char} (h : List.replicate n ' ' ++ '"' :: u = List.replicate m ' ' ++ '"' :: v) : u = v := by
  induction n generalizing m with
  | zero =>
    cases m with
    | zero => exact (List.cons.inj h).2
    | succ m => exact absurd (List.cons.inj h).1 (by decide)
  | succ n ih =>
    cases m with
    | zero => exact absurd (List.cons.inj h).1 (by decide)
    | succ m => exact ih (List.cons.inj h).2

theorem json_quote {src : List Char} (h : '"' ∈ src.flatMap jsonChar) : '\\' ∈ src.flatMap jsonChar := by
  obtain ⟨c, hc, h⟩ := List.mem_flatMap.1 h
  refine List.mem_flatMap.2 ⟨c, hc, ?_⟩
  unfold jsonChar at h ⊢
  split
  · simp
  · rename_i c1
    rw [if_neg c1] at h
    split
    · simp
    · rename_i c2
      rw [if_neg c2] at h
      split
      · simp
      · rename_i c3
        rw [if_neg c3] at h
        exact absurd (List.mem_singleton.1 h).symm c1

theorem assigns_unique {v1 v2 src : List Char} (h1 : NbName v1) (h2 : NbName v2) (a1 : Assigns v1 src) (a2 : Assigns v2 src) : v1 = v2 := by
  have key : ∀ v, NbName v → Assigns v src → src.takeWhile nbWord = v := by
    rintro v hv ⟨k, r, rfl⟩
    rw [List.append_assoc, List.takeWhile_append_of_pos]
    · have : (List.replicate k ' ' ++ '=' :: r).takeWhile nbWord = [] := by
        cases k with
        | zero => rfl
        | succ k => rfl
      rw [this, List.append_nil]
    · intro c hc
      have := hv.2 c hc
      simpa [nbWord] using this
  rw [← key v1 h1 a1, key v2 h2 a2]

theorem assigns_value : Assigns var (var ++ '=' :: val) := ⟨0, val, by simp⟩

theorem sets_unique {v1 v2 : List Char} {l : NbLine} (h1 : NbName v1) (h2 : NbName v2) (a1 : l.Sets v1) (a2 : l.Sets v2) : v1 = v2 := by
  cases l with
  | source n src => exact assigns_unique h1 h2 a1 a2
  | last n src => exact absurd a1 id
  | other t => exact absurd a1 id

open Classical in
/-- one argument -/
noncomputable def step (var val : List Char) (l : NbLine) : NbLine := if l.Sets var then l.withValue var val else l

theorem step_text (hv : NbName var) (hval : NbValue val) {l : NbLine} (hc : l.Clear var) : nbSed var val l.text = (step var val l).text := by
  unfold step
  cases l with
  | source n src =>
    by_cases h : Assigns var src
    · rw [if_pos (show (NbLine.source n src).Sets var from h)]
      refine sed_assigns n hv (fun c k => ⟨?_, ?_, ?_⟩) h <;> · rintro rfl; exact value_mem hval (by simp) k
    · rw [if_neg (show ¬(NbLine.source n src).Sets var from h)]
      exact sed_other n hv hc h
  | last n src => rw [if_neg (show ¬(NbLine.last n src).Sets var from id)]; exact sed_last n hc
  | other t => rw [if_neg (show ¬(NbLine.other t).Sets var from id)]; exact sed_infix hc

theorem step_clear {v2 : List Char} (hv : NbName var) (hval : NbValue val) {l : NbLine} (hc : l.Clear v2) : (step var val l).Clear v2 := by
  unfold step
  split
  · cases l with
    | source n src =>
      rintro ⟨a, b, e, -⟩
      have : '"' ∈ var ++ '=' :: val := by rw [e]; simp
      rcases List.mem_append.1 this with h | h
      · exact (word_ne (hv.2 _ h)).1 rfl
      · rcases List.mem_cons.1 h with h | h
        · exact absurd h (by decide)
        · exact value_mem hval (by simp) h
    | last n src => exact hc
    | other t => exact hc
  · exact hc

theorem step_after {args : List (List Char × List Char)} (hv : NbName var) (names : ∀ a ∈ args, NbName a.1) {l l' : NbLine}
    (h : NbLine.After args (step var val l) l') : NbLine.After ((var, val) :: args) l l' := by
  unfold step at h
  by_cases hs : l.Sets var
  · rw [if_pos hs] at h
    have hs' : (l.withValue var val).Sets var := by
      cases l with
      | source n src => exact assigns_value
      | last n src => exact hs
      | other t => exact hs
    have back : ∀ a ∈ args, ¬(l.withValue var val).Sets a.1 → ¬l.Sets a.1 := by
      intro a ha hn k
      rw [sets_unique (names a ha) hv k hs] at hn
      exact hn hs'
    rcases h with ⟨before, v2, val2, behind, rfl, h1, h2, h3⟩ | ⟨h1, h2⟩
    · have e : v2 = var := sets_unique (names (v2, val2) (by simp)) hv h1 hs'
      subst e
      refine Or.inl ⟨(v2, val) :: before, v2, val2, behind, rfl, hs, fun a ha => back a (by simp [ha]) (h2 a ha), ?_⟩
      rw [h3]
      cases l <;> rfl
    · exact Or.inl ⟨[], var, val, args, rfl, hs, fun a ha => back a ha (h1 a ha), h2⟩
  · rw [if_neg hs] at h
    rcases h with ⟨before, v2, val2, behind, rfl, h1, h2, h3⟩ | ⟨h1, h2⟩
    · exact Or.inl ⟨(var, val) :: before, v2, val2, behind, rfl, h1, h2, h3⟩
    · refine Or.inr ⟨fun a ha => ?_, h2⟩
      rcases List.mem_cons.1 ha with rfl | ha
      · exact hs
      · exact h1 a ha

theorem run_after (args : List (List Char × List Char)) (nb : List NbLine) (names : ∀ a ∈ args, NbName a.1) (values : ∀ a ∈ args, NbValue a.2)
    (clear : ∀ l ∈ nb, ∀ a ∈ args, l.Clear a.1) :
    ∃ nb', nbRun (args.map nbArgument) (nb.map NbLine.text) = some (nb'.map NbLine.text) ∧ List.Forall₂ (NbLine.After args) nb nb' := by
  induction args generalizing nb with
  | nil => exact ⟨nb, rfl, List.forall₂_same.2 fun l _ => Or.inr ⟨by simp, rfl⟩⟩
  | cons a args ih =>
    obtain ⟨var, val⟩ := a
    have hv : NbName var := names (var, val) (by simp)
    have hval : NbValue val := values (var, val) (by simp)
    obtain ⟨nb', h1, h2⟩ := ih (nb.map (step var val)) (fun a ha => names a (by simp [ha])) (fun a ha => values a (by simp [ha])) (by
      intro l hl a ha
      obtain ⟨l0, hl0, rfl⟩ := List.mem_map.1 hl
      exact step_clear hv hval (clear l0 hl0 a (by simp [ha])))
    refine ⟨nb', ?_, ?_⟩
    · have e : (nb.map NbLine.text).map (nbSed var val) = (nb.map (step var val)).map NbLine.text := by
        rw [List.map_map, List.map_map]
        exact List.map_congr_left fun l hl => step_text hv hval (clear l hl (var, val) (by simp))
      unfold nbRun at h1 ⊢
      rw [List.map_cons, List.foldlM_cons, arg_set hv hval, e]
      exact h1
    · rw [List.forall₂_map_left_iff] at h2
      exact h2.imp fun l l' h => step_after hv (fun a ha => names a (by simp [ha])) h

end NbRun

open NbRun

/-- the settings of tools/view_1_density_map.ipynb, lines 44-75, in short -/
def nbExample : List NbLine :=
  [.other "   \"source\": [".toList, .source 4 "##  configuration options".toList, .source 4 "config_file = '/home/parameters.xml'".toList, .source 4 [], .source 4 "timestamp=2.2e-9".toList,
   .last 4 "t_plot_name = r'$\\mathbf{Map}$'".toList, .other "   ]".toList]

theorem NbRun.example_name {v : List Char} (h : v ≠ [] ∧ v.all fun c => c.isAlphanum || c = '_') : NbName v := by
  refine ⟨h.1, fun c hc => ?_⟩
  have := List.all_eq_true.1 h.2 c hc
  simpa using this

theorem NbRun.example_clear (var : List Char) : ∀ l ∈ nbExample, l.Clear var := by
  have key : ∀ s : List Char, '"' ∉ s → ¬Quotes var s := by
    rintro s h ⟨a, b, rfl, -⟩
    exact h (by simp)
  intro l hl
  simp only [nbExample, List.mem_cons, List.not_mem_nil, or_false] at hl
  rcases hl with rfl | rfl | rfl | rfl | rfl | rfl | rfl
  · refine show ¬['\\', 'n', '"'] <:+: _ from ?_; simp [List.infix_cons_iff]
  · exact key _ (by decide)
  · exact key _ (by decide)
  · exact key _ (by decide)
  · exact key _ (by decide)
  · refine show ¬['\\', 'n'] <:+ _ from ?_; simp [List.suffix_cons_iff]
  · refine show ¬['\\', 'n', '"'] <:+: _ from ?_; simp [List.infix_cons_iff]

/-- **C123** (lines other than the last ones of cells, values without the characters of `NbValue`).  The notebook that is run is the one of the file with every assignment of a variable from the
command line replaced by the last value given for it; all other lines are those of the file. -/
theorem C123_sets_partial (nb : List NbLine) (args : List (List Char × List Char)) (names : ∀ a ∈ args, NbName a.1) (values : ∀ a ∈ args, NbValue a.2)
    (clear : ∀ l ∈ nb, ∀ a ∈ args, l.Clear a.1) :
    ∃ nb', nbRun (args.map nbArgument) (nb.map NbLine.text) = some (nb'.map NbLine.text) ∧ List.Forall₂ (NbLine.After args) nb nb' :=
  run_after args nb names values clear

example : ∃ nb', nbRun ["timestamp=1e-9".toList, "config_file='/tmp/a b.xml'".toList] (nbExample.map NbLine.text) = some (nb'.map NbLine.text) ∧
    List.Forall₂ (NbLine.After [("timestamp".toList, "1e-9".toList), ("config_file".toList, "'/tmp/a b.xml'".toList)]) nbExample nb' := by
  refine C123_sets_partial nbExample [("timestamp".toList, "1e-9".toList), ("config_file".toList, "'/tmp/a b.xml'".toList)] ?_ ?_ fun l hl a _ => example_clear a.1 l hl
  · intro a ha
    simp only [List.mem_cons, List.not_mem_nil, or_false] at ha
    rcases ha with rfl | rfl <;> exact example_name (by decide)
  · intro a ha
    simp only [List.mem_cons, List.not_mem_nil, or_false] at ha
    rcases ha with rfl | rfl <;> exact ⟨by simp, by simp [List.infix_cons_iff], by simp [List.suffix_cons_iff]⟩

/-- A name that no line assigns (like the `config_path` of README.md:146, which no notebook has) is ignored: the notebook is run as it is. -/
theorem C123_unknown (nb : List NbLine) (var val : List Char) (name : NbName var) (value : NbValue val) (clear : ∀ l ∈ nb, l.Clear var) (unknown : ∀ l ∈ nb, ¬l.Sets var) :
    nbRun [nbArgument (var, val)] (nb.map NbLine.text) = some (nb.map NbLine.text) := by
  obtain ⟨nb', h1, h2⟩ := run_after [(var, val)] nb (by simpa using name) (by simpa using value) (by simpa using clear)
  rw [List.map_singleton] at h1
  rw [h1]
  have : nb = nb' := by
    clear h1 clear
    induction h2 with
    | nil => rfl
    | @cons l l' ls ls' h _ ih =>
      rw [ih fun x hx => unknown x (by simp [hx])]
      congr 1
      rcases h with ⟨before, v2, val2, behind, e, k, -⟩ | ⟨-, h⟩
      · have : (v2, val2) ∈ [(var, val)] := by rw [e]; simp
        rw [List.mem_singleton] at this
        rw [(Prod.mk.inj this).1] at k
        exact absurd k (unknown l (by simp))
      · exact h.symm
  rw [this]

theorem NbRun.not_assigns {var src : List Char} (hv : NbName var) (h : src.takeWhile nbWord ≠ var) : ¬Assigns var src := by
  rintro ⟨k, r, rfl⟩
  apply h
  rw [List.append_assoc, List.takeWhile_append_of_pos]
  · cases k <;> simp [nbWord, List.replicate_succ]
  · intro c hc
    have := hv.2 c hc
    simpa [nbWord] using this

example : nbRun ["config_path='/path/to/parameters.xml'".toList] (nbExample.map NbLine.text) = some (nbExample.map NbLine.text) := by
  have hv : NbName "config_path".toList := example_name (by decide)
  refine C123_unknown nbExample "config_path".toList "'/path/to/parameters.xml'".toList hv ⟨by simp, by simp [List.infix_cons_iff], by simp [List.suffix_cons_iff]⟩ (fun l hl => example_clear _ l hl) fun l hl => ?_
  simp only [nbExample, List.mem_cons, List.not_mem_nil, or_false] at hl
  rcases hl with rfl | rfl | rfl | rfl | rfl | rfl | rfl
  · exact id
  · exact not_assigns hv (by simp [nbWord, Char.isAlphanum])
  · exact not_assigns hv (by simp [nbWord, Char.isAlphanum])
  · exact not_assigns hv (by simp)
  · exact not_assigns hv (by simp [nbWord, Char.isAlphanum])
  · exact id
  · exact id

/-- **C123 is violated for the last line of a cell.**  It stays as it is, although it assigns the variable: it has no `\n`.  (The settings of every notebook end with such a line.) -/
theorem C123_last_violated (before behind : List NbLine) (n : ℕ) (src var val : List Char) (name : NbName var) (value : NbValue val) (_assigned : Assigns var src)
    (ending : ¬['\\', 'n'] <:+ src) :
    ∃ b c, nbRun [nbArgument (var, val)] ((before ++ .last n src :: behind).map NbLine.text) = some (b ++ (NbLine.last n src).text :: c) ∧ b.length = before.length := by
  refine ⟨(before.map NbLine.text).map (nbSed var val), (behind.map NbLine.text).map (nbSed var val), ?_, by simp⟩
  unfold nbRun
  rw [List.foldlM_cons, arg_set name value]
  rw [List.map_append, List.map_cons, List.map_append, List.map_cons, sed_last n ending]
  rfl

example : ∃ b c, nbRun ["t_plot_name='Map'".toList] (nbExample.map NbLine.text) = some (b ++ (NbLine.last 4 "t_plot_name = r'$\\mathbf{Map}$'".toList).text :: c) ∧ b.length = 5 := by
  have := C123_last_violated (nbExample.take 5) (nbExample.drop 6) 4 "t_plot_name = r'$\\mathbf{Map}$'".toList "t_plot_name".toList "'Map'".toList (example_name (by decide))
    ⟨by simp, by simp [List.infix_cons_iff], by simp [List.suffix_cons_iff]⟩ ⟨1, " r'$\\mathbf{Map}$'".toList, by decide⟩ (by simp [List.suffix_cons_iff])
  exact this

/-- **C123 is violated for values with `=`.**  What is behind the second `=` is lost. -/
theorem C123_equals_violated (file : List (List Char)) (var val rest : List Char) (name : NbName var) (value : NbValue val) :
    nbRun [nbArgument (var, val ++ '=' :: rest)] file = nbRun [nbArgument (var, val)] file := by
  have e : nbArg file (nbArgument (var, val ++ '=' :: rest)) = nbArg file (nbArgument (var, val)) := by
    have e1 : shellEcho false false (nbArgument (var, val ++ '=' :: rest)) = var ++ '=' :: (val ++ '=' :: shellEcho true false rest) := by
      unfold nbArgument
      rw [echo_head name, (echo_both (by decide) rest val (value_mem value (by simp)) value.2.1).1]
    have e2 : shellEcho false false (nbArgument (var, val)) = var ++ '=' :: val := by
      unfold nbArgument
      rw [echo_head name, echo_end (value_mem value (by simp)) value.2.1 value.2.2]
    have t : ∀ c ∈ val, decide (c ≠ '=') = true := by
      intro c hc
      simp only [decide_eq_true_eq]
      rintro rfl
      exact value_mem value (by simp) hc
    unfold nbArg
    rw [e1, e2, cut_first name, cut_first name, cut_rest name, cut_rest name, List.takeWhile_append_of_pos t, List.takeWhile_eq_self_iff.2 t]
    simp
  unfold nbRun
  rw [List.foldlM_cons, List.foldlM_cons, e]

example (file : List (List Char)) : nbRun ["config_file='/data/n=5/p.xml'".toList] file = nbRun ["config_file='/data/n".toList] file :=
  C123_equals_violated file "config_file".toList "'/data/n".toList "5/p.xml'".toList (example_name (by decide)) ⟨by simp, by simp [List.infix_cons_iff], by simp [List.suffix_cons_iff]⟩

/-- **C123 is violated for values with two spaces in a row**: only one of them is left. -/
theorem C123_spaces_violated (file : List (List Char)) (u w : List Char) : nbRun [u ++ ' ' :: ' ' :: w] file = nbRun [u ++ ' ' :: w] file := by
  have e : ∀ s p, shellEcho s p (u ++ ' ' :: ' ' :: w) = shellEcho s p (u ++ ' ' :: w) := by
    induction u with
    | nil => intro s p; simp [shellEcho, nbBlank]
    | cons c u ih =>
      intro s p
      rw [List.cons_append, List.cons_append, shellEcho, shellEcho, ih, ih]
  unfold nbRun nbArg
  rw [List.foldlM_cons, List.foldlM_cons, e]

example (file : List (List Char)) : nbRun ["x_axis_label='Z  (m)'".toList] file = nbRun ["x_axis_label='Z (m)'".toList] file :=
  C123_spaces_violated file "x_axis_label='Z".toList "(m)'".toList

/-- **C123 is violated for lines with the name behind a quotation mark**: what is behind it is replaced too, although the line assigns nothing to the variable. -/
theorem C123_quoted_violated (n : ℕ) (a b var val : List Char) (name : NbName var) (value : NbValue val) (first : '"' ∉ a) (quoted : Assigns var b) (other : ¬Assigns var (a ++ '"' :: b)) :
    nbRun [nbArgument (var, val)] [(NbLine.source n (a ++ '"' :: b)).text] = some [(NbLine.source n (a ++ '"' :: (var ++ '=' :: val))).text] := by
  unfold nbRun
  rw [List.foldlM_cons, arg_set name value, List.map_singleton]
  have inside : nbSed var val ('"' :: (b.flatMap jsonChar ++ "\\n\",".toList)) = '"' :: ((var ++ '=' :: val).flatMap jsonChar ++ "\\n\",".toList) := by
    have := sed_assigns (val := val) 0 name (fun c k => ⟨by rintro rfl; exact value_mem value (by simp) k, by rintro rfl; exact value_mem value (by simp) k,
      by rintro rfl; exact value_mem value (by simp) k⟩) quoted
    exact this
  have skip : ∀ (a : List Char) (t : List Char), '"' ∉ a → nbSed var val (a.flatMap jsonChar ++ t) = a.flatMap jsonChar ++ nbSed var val t := by
    intro a t ha
    induction a with
    | nil => rfl
    | cons c a ih =>
      have ih := ih fun h => ha (List.mem_cons_of_mem _ h)
      have c1 : c ≠ '"' := fun h => ha (h ▸ List.mem_cons_self)
      rw [List.flatMap_cons, List.append_assoc, List.append_assoc, ← ih]
      unfold jsonChar
      rw [if_neg c1]
      split
      · simp only [List.cons_append, List.nil_append, nbSed, nbMatch_quote (show '\\' ≠ '"' by decide)]
      · split
        · simp only [List.cons_append, List.nil_append, nbSed, nbMatch_quote (show '\\' ≠ '"' by decide), nbMatch_quote (show 't' ≠ '"' by decide)]
        · simp only [List.cons_append, List.nil_append, nbSed, nbMatch_quote c1]
  have start : nbMatch var ('"' :: ((a ++ '"' :: b).flatMap jsonChar ++ "\\n\",".toList)) = none := by
    cases m : nbMatch var ('"' :: ((a ++ '"' :: b).flatMap jsonChar ++ "\\n\",".toList)) with
    | none => rfl
    | some r => exact absurd (match_assigns name tail_begins m) other
  have e : ∀ b : List Char, (a ++ '"' :: b).flatMap jsonChar ++ "\\n\",".toList = a.flatMap jsonChar ++ '\\' :: ('"' :: (b.flatMap jsonChar ++ "\\n\",".toList)) := by
    intro b
    simp [jsonChar]
  have r : nbSed var val (NbLine.source n (a ++ '"' :: b)).text = (NbLine.source n (a ++ '"' :: (var ++ '=' :: val))).text := by
    unfold NbLine.text
    dsimp only
    rw [List.append_assoc, nbSed_spaces, List.cons_append, nbSed, start]
    dsimp only
    rw [e, skip a _ first, nbSed, nbMatch_quote (by decide)]
    dsimp only
    rw [inside, ← e]
    simp
  rw [r]
  rfl

example : nbRun ["radius=0.02".toList] [(NbLine.source 4 "print(\"radius = %s\" % radius)".toList).text] = some [(NbLine.source 4 "print(\"radius=0.02".toList).text] := by
  have hv : NbName "radius".toList := example_name (by decide)
  exact C123_quoted_violated 4 "print(".toList "radius = %s\" % radius)".toList "radius".toList "0.02".toList hv ⟨by simp, by simp [List.infix_cons_iff], by simp [List.suffix_cons_iff]⟩ (by decide)
    ⟨1, " %s\" % radius)".toList, by decide⟩ (not_assigns hv (by simp [nbWord, Char.isAlphanum]))

/-- **C123 is violated for values with `"`**, like `specie="electrons"` with its quotation marks: the line is not a string of JSON any more, so that the file is no notebook. -/
theorem C123_marks_violated (n : ℕ) (src var val : List Char) (name : NbName var) (plain : ∀ c ∈ val, c ∉ ['|', '&', '\\', '=', '\n', '\t']) (once : ¬[' ', ' '] <:+: val)
    (ending : ¬[' '] <:+ val) (mark : '"' ∈ val) (assigned : Assigns var src) :
    ∃ t, nbRun [nbArgument (var, val)] [(NbLine.source n src).text] = some [t] ∧ ∀ m s, t ≠ (NbLine.source m s).text ∧ t ≠ (NbLine.last m s).text := by
  refine ⟨List.replicate n ' ' ++ '"' :: (var ++ '=' :: val ++ "\\n\",".toList), ?_, fun m s => ⟨fun e => ?_, fun e => ?_⟩⟩
  · unfold nbRun
    rw [List.foldlM_cons, arg_raw name plain once ending, List.map_singleton, sed_raw val n name assigned]
    rfl
  · have e : var ++ '=' :: val ++ "\\n\",".toList = s.flatMap jsonChar ++ "\\n\",".toList := spaces_inj (m := m) (e.trans (by unfold NbLine.text; simp))
    have e := List.append_cancel_right e
    have k : '\\' ∈ var ++ '=' :: val := by rw [e]; exact json_quote (by rw [← e]; simp [mark])
    rcases List.mem_append.1 k with k | k
    · exact (word_ne (name.2 _ k)).2.1 rfl
    · rcases List.mem_cons.1 k with k | k
      · exact absurd k (by decide)
      · exact plain _ k (by simp)
  · have e : var ++ '=' :: val ++ "\\n\",".toList = s.flatMap jsonChar ++ "\"".toList := spaces_inj (m := m) (e.trans (by unfold NbLine.text; simp))
    have e : (var ++ '=' :: val ++ ['\\', 'n', '"']) ++ [','] = s.flatMap jsonChar ++ ['"'] := by rw [List.append_assoc]; exact e
    exact absurd (List.cons.inj (List.append_inj' e rfl).2).1 (by decide)

example : ∃ t, nbRun ["specie=\"ions\"".toList] [(NbLine.source 4 "specie = 'electrons'".toList).text] = some [t] ∧ ∀ m s, t ≠ (NbLine.source m s).text ∧ t ≠ (NbLine.last m s).text :=
  C123_marks_violated 4 "specie = 'electrons'".toList "specie".toList "\"ions\"".toList (example_name (by decide)) (by simp) (by simp [List.infix_cons_iff])
    (by simp [List.suffix_cons_iff]) (by simp) ⟨1, " 'electrons'".toList, by decide⟩

/-- **C123 is violated for arguments without `=`**: a name alone (like a flag, `use_cache`) replaces the value of the variable by its own name. -/
theorem C123_bare_violated (file : List (List Char)) (var : List Char) (name : NbName var) : nbRun [var] file = nbRun [nbArgument (var, var)] file := by
  have ne : ∀ c ∈ var, decide (c ≠ '=') = true := fun c hc => by simpa using (word_ne (name.2 c hc)).2.2.1
  have e1 : shellEcho false false var = var := by
    have := echo_word false [] (name_blank name) name.1
    rw [List.append_nil] at this
    rw [this]
    simp [shellEcho]
  have e2 : shellEcho false false (nbArgument (var, var)) = var ++ '=' :: var := by
    have := echo_word true [] (name_blank name) name.1
    rw [List.append_nil] at this
    unfold nbArgument
    rw [echo_head name, this]
    simp [shellEcho]
  have e3 : cutSecond var = var := by
    unfold cutSecond
    rw [if_neg fun h => (word_ne (name.2 _ h)).2.2.1 rfl]
  unfold nbRun
  rw [List.foldlM_cons, List.foldlM_cons]
  unfold nbArg
  rw [e1, e2, cut_first name, cut_rest name, e3, List.takeWhile_eq_self_iff.2 ne]
  unfold cutFirst
  rw [List.takeWhile_eq_self_iff.2 ne]

example (file : List (List Char)) : nbRun ["use_cache".toList] file = nbRun ["use_cache=use_cache".toList] file :=
  C123_bare_violated file "use_cache".toList (example_name (by decide))

end Verif
