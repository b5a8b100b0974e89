import Verif.Config
import Verif.ResultReaderProps

/-!
# Numbers of the configuration (C67)
-/

namespace Verif

/-! ## Specification: decimal numbers and their texts -/

/-- A decimal number as people write it: sign, digits, digits after a point, exponent of ten -/
structure Lit where
  neg : Bool
  whole : ℕ
  frac : List (Fin 10)
  exp : Option ℤ

/-- A digit -/
def digitText (d : Fin 10) : Char := Nat.digitChar d.val

/-- Point and digits -/
def fracText : List (Fin 10) → List Char
  | [] => []
  | d :: ds => '.' :: (d :: ds).map digitText

/-- Exponent -/
def expText : Option ℤ → List Char
  | none => []
  | some e => 'e' :: fmtInt e

/-- The text, as `-12.50e-3`; the point is left out when no digits follow, and so is the exponent -/
def Lit.text (l : Lit) : List Char :=
  (if l.neg then ['-'] else []) ++ dec l.whole ++ (fracText l.frac ++ expText l.exp)

/-- The digits after the point are tenths, tenths of tenths and so on -/
noncomputable def fracValue : List (Fin 10) → ℝ
  | [] => 0
  | d :: ds => ((d.val : ℝ) + fracValue ds) / 10

/-- The number -/
noncomputable def Lit.value (l : Lit) : ℝ :=
  (if l.neg then -1 else 1) * ((l.whole : ℝ) + fracValue l.frac) * (10 : ℝ) ^ (l.exp.getD 0)

/-! ## Proofs -/

theorem digitsVal_append (l m : List Char) : digitsVal (l ++ m) = digitsVal l * 10 ^ m.length + digitsVal m := by
  unfold digitsVal
  rw [List.foldl_append]
  generalize l.foldl (fun a c => a * 10 + (c.toNat - 48)) 0 = a
  have key : ∀ (m : List Char) (a : ℕ), m.foldl (fun a c => a * 10 + (c.toNat - 48)) a
      = a * 10 ^ m.length + m.foldl (fun a c => a * 10 + (c.toNat - 48)) 0 := by
    intro m
    induction m with
    | nil => intro a; simp
    | cons c m ih =>
      intro a
      simp only [List.foldl_cons, List.length_cons]
      rw [ih, ih (0 * 10 + (c.toNat - 48))]
      ring
  exact key m a

theorem digitsVal_dec (n : ℕ) : digitsVal (dec n) = n := by
  have h : ∀ l : List Char, digitsVal l = Nat.ofDigitChars 10 l 0 := by
    intro l
    unfold digitsVal Nat.ofDigitChars
    congr 1
    funext a c
    rw [Nat.mul_comm]
    rfl
  rw [h]
  simp [dec]

theorem digitChar_isDigit (d : Fin 10) : (digitText d).isDigit = true := by revert d; decide

theorem digitChar_val (d : Fin 10) : (digitText d).toNat - 48 = d := by revert d; decide

theorem fracValue_digits (ds : List (Fin 10)) :
    (digitsVal (ds.map digitText) : ℝ) = fracValue ds * 10 ^ ds.length := by
  induction ds with
  | nil => simp [digitsVal, fracValue]
  | cons d ds ih =>
    rw [List.map_cons, ← List.singleton_append, digitsVal_append]
    push_cast
    rw [ih]
    have : digitsVal [digitText d] = d := by simp [digitsVal, digitChar_val]
    rw [this]
    simp only [fracValue, List.length_cons, List.length_map]
    ring

theorem takeWhile_digits {l : List Char} (h : ∀ c ∈ l, c.isDigit = true) {m : List Char}
    (hm : ∀ c ∈ m.head?, c.isDigit = false) : (l ++ m).takeWhile Char.isDigit = l := by
  rw [List.takeWhile_append_of_pos h]
  cases m with
  | nil => simp
  | cons c m => simp [hm c (by simp)]

theorem dropWhile_digits {l : List Char} (h : ∀ c ∈ l, c.isDigit = true) {m : List Char}
    (hm : ∀ c ∈ m.head?, c.isDigit = false) : (l ++ m).dropWhile Char.isDigit = m := by
  rw [List.dropWhile_append_of_pos h]
  cases m with
  | nil => simp
  | cons c m => simp [hm c (by simp)]

theorem digit_not_space {c : Char} (h : c.isDigit = true) : isSpaceC c = false := by
  simp only [isSpaceC, List.mem_cons, List.not_mem_nil, or_false, decide_eq_false_iff_not, not_or]
  refine ⟨?_, ?_, ?_, ?_, ?_, ?_⟩ <;> rintro rfl <;> revert h <;> decide

theorem splitSign_digit {c : Char} {t : List Char} (h : c.isDigit = true) : splitSign (c :: t) = (false, c :: t) := by
  unfold splitSign
  split
  · rename_i heq; cases heq; exact absurd h (by decide)
  · rename_i heq; cases heq; exact absurd h (by decide)
  · rfl

/-- White space and a sign in front of a number -/
theorem splitSign_text (neg : Bool) (n : ℕ) (ws rest : List Char) (hws : ∀ c ∈ ws, isSpaceC c = true) :
    splitSign ((ws ++ ((if neg then ['-'] else []) ++ dec n ++ rest)).dropWhile isSpaceC) = (neg, dec n ++ rest) := by
  rw [List.dropWhile_append_of_pos hws]
  obtain ⟨c, t, hc, hd⟩ := dec_head n
  cases neg with
  | true =>
    have : isSpaceC '-' = false := by decide
    simp [this, splitSign]
  | false =>
    simp only [Bool.false_eq_true, if_false, List.nil_append, hc, List.cons_append]
    rw [List.dropWhile_cons_of_neg (by rw [digit_not_space hd]; simp), splitSign_digit hd]

theorem fmtInt_eq (n : ℤ) : fmtInt n = (if decide (n < 0) then ['-'] else []) ++ dec n.natAbs := by
  unfold fmtInt
  by_cases h : n < 0 <;> simp [h]

/-- **C67** An integer of the configuration is read as it is written, whatever white space stands before it and
whatever follows it that does not begin with a digit. -/
theorem C67_integer (n : ℤ) (ws rest : List Char) (hws : ∀ c ∈ ws, isSpaceC c = true)
    (hrest : ∀ c ∈ rest.head?, c.isDigit = false) : atoi (ws ++ fmtInt n ++ rest) = n := by
  unfold atoi
  rw [fmtInt_eq, List.append_assoc ws, splitSign_text _ _ _ _ hws]
  simp only
  rw [takeWhile_digits (dec_digits _) hrest, digitsVal_dec]
  by_cases h : n < 0
  · simp only [h, decide_true, if_true]; omega
  · simp only [h, decide_false, Bool.false_eq_true, if_false]; omega

theorem C67_integer_text (n : ℤ) : atoi (fmtInt n) = n := by
  have := C67_integer n [] [] (by simp) (by simp)
  simpa using this

theorem exponent_text (e : ℤ) : exponent ('e' :: fmtInt e) = e := by
  have h := C67_integer_text e
  unfold exponent
  simp only [true_or, if_true]
  unfold atoi at h
  have hs : (fmtInt e).dropWhile isSpaceC = fmtInt e := by
    rw [fmtInt_eq]
    obtain ⟨c, t, hc, hd⟩ := dec_head e.natAbs
    by_cases h : e < 0
    · have : isSpaceC '-' = false := by decide
      simp [h, this]
    · simp [h, hc, digit_not_space hd]
  rw [hs] at h
  exact h

theorem expText_head (ex : Option ℤ) : ∀ c ∈ (expText ex).head?, c.isDigit = false := by
  cases ex <;> simp [expText]

theorem exponent_expText (ex : Option ℤ) : exponent (expText ex) = ex.getD 0 := by
  cases ex with
  | none => rfl
  | some e => exact exponent_text e

theorem fracText_head (ds : List (Fin 10)) (ex : Option ℤ) :
    ∀ c ∈ (fracText ds ++ expText ex).head?, c.isDigit = false := by
  cases ds with
  | nil => exact expText_head ex
  | cons d ds => simp [fracText]

theorem splitFrac_text (ds : List (Fin 10)) (ex : Option ℤ) :
    splitFrac (fracText ds ++ expText ex) = (ds.map digitText, expText ex) := by
  cases ds with
  | nil => cases ex <;> rfl
  | cons d ds =>
    have hds : ∀ c ∈ (d :: ds).map digitText, c.isDigit = true := by
      intro c hc
      obtain ⟨x, _, rfl⟩ := List.mem_map.1 hc
      exact digitChar_isDigit x
    unfold fracText
    rw [List.cons_append]
    unfold splitFrac
    simp only
    rw [takeWhile_digits hds (expText_head ex), dropWhile_digits hds (expText_head ex)]

/-- **C67** A decimal number of the configuration is read as it is written. -/
theorem C67_decimal (l : Lit) (ws : List Char) (hws : ∀ c ∈ ws, isSpaceC c = true) : atof (ws ++ l.text) = l.value := by
  obtain ⟨neg, n, frac, ex⟩ := l
  unfold atof Lit.text
  rw [splitSign_text _ _ _ _ hws]
  simp only
  rw [takeWhile_digits (dec_digits _) (fracText_head frac ex), dropWhile_digits (dec_digits _) (fracText_head frac ex),
    splitFrac_text]
  have hne : dec n ≠ [] := by unfold dec; exact Nat.toDigits_ne_nil
  rw [if_neg (by simp [hne]), exponent_expText]
  have hv : (digitsVal (dec n ++ frac.map digitText) : ℝ) * (10 : ℝ) ^ (ex.getD 0 - ((frac.map digitText).length : ℤ))
      = ((n : ℝ) + fracValue frac) * (10 : ℝ) ^ (ex.getD 0) := by
    rw [digitsVal_append, digitsVal_dec, zpow_sub₀ (by norm_num)]
    push_cast
    rw [fracValue_digits, zpow_natCast, List.length_map]
    field_simp
  simp only
  rw [hv]
  unfold Lit.value
  cases neg <;> simp <;> ring

/-- **C67** fails for other texts: they are not reported.  A text that does not begin like a number is read as
0, and a whole number written with a point or an exponent loses what follows its first digits. -/
theorem C67_silent_violated :
    (∀ s : List Char, (∀ c ∈ (splitSign (s.dropWhile isSpaceC)).2.head?, c.isDigit = false) → intText s = .ok 0) ∧
    (∀ n : ℤ, ∀ rest : List Char, -2 ^ 31 ≤ n → n < 2 ^ 31 → intText (fmtInt n ++ '.' :: rest) = .ok n) ∧
    (∀ n : ℤ, ∀ rest : List Char, -2 ^ 31 ≤ n → n < 2 ^ 31 → intText (fmtInt n ++ 'e' :: rest) = .ok n) := by
  refine ⟨fun s hs => ?_, fun n rest h1 h2 => ?_, fun n rest h1 h2 => ?_⟩
  · have : atoi s = 0 := by
      unfold atoi
      simp only
      generalize (splitSign (s.dropWhile isSpaceC)).2 = t at hs
      have : t.takeWhile Char.isDigit = [] := by
        cases t with
        | nil => rfl
        | cons c t => simp [hs c (by simp)]
      rw [this]
      simp [digitsVal]
    unfold intText
    rw [this, if_pos (by norm_num)]
  · have := C67_integer n [] ('.' :: rest) (by simp) (by simp)
    unfold intText
    rw [show fmtInt n ++ '.' :: rest = [] ++ fmtInt n ++ '.' :: rest by simp, this, if_pos ⟨h1, h2⟩]
  · have := C67_integer n [] ('e' :: rest) (by simp) (by simp)
    unfold intText
    rw [show fmtInt n ++ 'e' :: rest = [] ++ fmtInt n ++ 'e' :: rest by simp, this, if_pos ⟨h1, h2⟩]

/-- Not vacuous: `1.05e16` and `-12` -/
example : Lit.text ⟨false, 1, [0, 5], some 16⟩ = "1.05e16".toList ∧ atof "1.05e16".toList = 10500000000000000 ∧
    atoi " -12<".toList = -12 ∧ intText "1e3".toList = .ok 1 ∧ intText "0.5".toList = .ok 0 := by
  have h : Lit.text ⟨false, 1, [0, 5], some 16⟩ = "1.05e16".toList := by decide +kernel
  refine ⟨h, ?_, by decide +kernel, by decide +kernel, by decide +kernel⟩
  rw [← h]
  have := C67_decimal ⟨false, 1, [0, 5], some 16⟩ [] (by simp)
  rw [List.nil_append] at this
  rw [this]
  norm_num [Lit.value, fracValue]

end Verif
