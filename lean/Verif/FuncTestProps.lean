import Verif.FuncTest
import Mathlib.Data.List.Forall2
import Mathlib.Tactic.Ring
import Mathlib.Tactic.Positivity
import Mathlib.Tactic.NormNum
import Mathlib.Tactic.Linarith

/-!
# Properties of the functional test (C107)
-/

namespace Verif

open FuncTest

/-- the same entries are NaN -/
def SameNaN (s t : Data) : Prop := List.Forall₂ (fun a b => a.isNone = b.isNone) s t

theorem components_eq : components = compared := by decide

theorem sameNaN_length {s t : Data} (h : SameNaN s t) : s.reduceOption.length = t.reduceOption.length := by
  induction h with
  | nil => rfl
  | @cons a b s t hab _ ih =>
    cases a <;> cases b <;> simp at hab
    · simpa [List.reduceOption_cons_of_none] using ih
    · simp [List.reduceOption_cons_of_some, ih]

theorem sameNaN_near {s t : Data} (h : SameNaN s t) (rtol : ℝ) :
    (∀ x ∈ s.reduceOption.zip t.reduceOption, |x.1 - x.2| ≤ 1 + rtol * |x.2|) ↔ List.Forall₂ (Near rtol) s t := by
  induction h with
  | nil => simp
  | @cons a b s t hab _ ih =>
    cases a <;> cases b <;> simp at hab
    · rw [List.reduceOption_cons_of_none, List.reduceOption_cons_of_none, ih, List.forall₂_cons]
      simp [Near]
    · rw [List.reduceOption_cons_of_some, List.reduceOption_cons_of_some, List.zip_cons_cons, List.forall₂_cons, ← ih]
      simp [Near]

theorem compare_sameNaN {true_files test_files : Files} {c : String} {n : ℕ} {s t : Data} (ht : true_files c n = some t)
    (hs : test_files c n = some s) (h : SameNaN s t) (rtol : ℝ) (verbose : Bool) :
    ∃ b, compareFiles true_files test_files rtol 1 verbose c n = some b ∧ (b = true ↔ List.Forall₂ (Near rtol) s t) := by
  have hl := sameNaN_length h
  unfold compareFiles allclose broadcast
  rw [ht, hs, Option.bind_some, Option.bind_some, if_pos hl, Option.map_some, Option.bind_some, hl]
  simp only [lt_irrefl, decide_false, Bool.and_false, Bool.false_eq_true, if_false]
  refine ⟨_, rfl, ?_⟩
  rw [← sameNaN_near h]
  simp

theorem fold_status (f : String → Option Bool) (l : List String) (b : Bool) (h : ∀ c ∈ l, ∃ s, f c = some s) :
    ∃ r, l.foldlM (fun status c => (f c).map fun s => if status then s else status) b = some r ∧
      (r = true ↔ b = true ∧ ∀ c ∈ l, f c = some true) := by
  induction l generalizing b with
  | nil => exact ⟨b, rfl, by simp⟩
  | cons c l ih =>
    obtain ⟨s, hs⟩ := h c (by simp)
    obtain ⟨r, h1, h2⟩ := ih (if b then s else b) fun d hd => h d (by simp [hd])
    refine ⟨r, ?_, ?_⟩
    · rw [List.foldlM_cons, hs]
      exact h1
    · rw [h2]
      simp only [List.forall_mem_cons, hs]
      cases b <;> cases s <;> simp

theorem fold_none (f : String → Option Bool) (l : List String) (b : Bool) (c : String) (hc : c ∈ l) (h : f c = none) :
    l.foldlM (fun status c => (f c).map fun s => if status then s else status) b = none := by
  induction l generalizing b with
  | nil => cases hc
  | cons d l ih =>
    rw [List.foldlM_cons]
    rcases List.mem_cons.1 hc with e | hc
    · rw [← e, h]
      rfl
    · cases f d with
      | none => rfl
      | some s => exact ih _ hc

theorem functionalTest_eq (kind : TestKind) (fastmath verbose : Bool) (true_files test_files : Files) :
    functionalTest kind fastmath verbose true_files test_files =
      match testExample true_files test_files kind.number (kind.rtol fastmath) verbose with
      | none => ⟨false, 1⟩
      | some s => ⟨s, 0⟩ := by
  have e1 : (0.1 : ℝ) = 1 / 10 := by norm_num
  have e2 : (0.001 : ℝ) = 1 / 1000 := by norm_num
  have e3 : (0.25 : ℝ) = 1 / 4 := by norm_num
  unfold functionalTest TestKind.number TestKind.rtol
  cases kind <;> cases fastmath <;> simp only [e1, e2, e3, if_true, if_false, Bool.false_eq_true] <;> rfl

/-- **C107** When in each component the same entries are NaN as in the reference, the test says PASSED if and only if all numbers are
near those of the reference. -/
theorem C107_verdict_partial (kind : TestKind) (fastmath verbose : Bool) (ref run : Files)
    (h : ∀ c ∈ compared, ∃ s t, run c kind.number = some s ∧ ref c kind.number = some t ∧ SameNaN s t) :
    (functionalTest kind fastmath verbose ref run).passed = true ↔
      ∀ c ∈ compared, Agrees (kind.rtol fastmath) (run c kind.number) (ref c kind.number) := by
  obtain ⟨r, h1, h2⟩ := fold_status (fun c => compareFiles ref run (kind.rtol fastmath) 1 verbose c kind.number) compared true (by
    intro c hc
    obtain ⟨s, t, hs, ht, hn⟩ := h c hc
    obtain ⟨b, hb, -⟩ := compare_sameNaN ht hs hn (kind.rtol fastmath) verbose
    exact ⟨b, hb⟩)
  rw [functionalTest_eq, testExample, components_eq, h1]
  simp only
  rw [h2]
  simp only [true_and]
  refine forall₂_congr fun c hc => ?_
  obtain ⟨s, t, hs, ht, hn⟩ := h c hc
  obtain ⟨b, hb, hb'⟩ := compare_sameNaN ht hs hn (kind.rtol fastmath) verbose
  rw [hb]
  unfold Agrees
  constructor
  · intro h
    exact ⟨s, t, hs, ht, hb'.1 (by simpa using h)⟩
  · rintro ⟨s', t', hs', ht', hf⟩
    rw [hs, Option.some.injEq] at hs'
    rw [ht, Option.some.injEq] at ht'
    subst hs' ht'
    rw [hb'.2 hf]

/-- **C107** The test never says PASSED when a file is missing. -/
theorem C107_missing (kind : TestKind) (fastmath verbose : Bool) (ref run : Files) (c : String) (hc : c ∈ compared)
    (h : run c kind.number = none ∨ ref c kind.number = none) :
    functionalTest kind fastmath verbose ref run = ⟨false, 1⟩ := by
  have hnone : compareFiles ref run (kind.rtol fastmath) 1 verbose c kind.number = none := by
    unfold compareFiles
    rcases h with h | h
    · rw [h]
      cases ref c kind.number <;> rfl
    · rw [h]
      rfl
  have : testExample ref run kind.number (kind.rtol fastmath) verbose = none := by
    unfold testExample
    rw [components_eq]
    exact fold_none _ _ _ c hc hnone
  rw [functionalTest_eq, this]

/-- The exit status does not tell: a test that fails ends with status 0. -/
theorem C107_exit_violated (kind : TestKind) (fastmath verbose : Bool) : ∃ ref run : Files,
    (∀ c ∈ compared, ∃ s t, run c kind.number = some s ∧ ref c kind.number = some t ∧ SameNaN s t) ∧
    (functionalTest kind fastmath verbose ref run).passed = false ∧ (functionalTest kind fastmath verbose ref run).exit = 0 := by
  obtain ⟨ref, href⟩ : ∃ ref : Files, ref = fun _ _ => some [some 0] := ⟨_, rfl⟩
  obtain ⟨run, hrun⟩ : ∃ run : Files, run = fun _ _ => some [some 10] := ⟨_, rfl⟩
  have hn : ∀ c ∈ compared, ∃ s t : Data, run c kind.number = some s ∧ ref c kind.number = some t ∧ SameNaN s t :=
    fun c _ => ⟨[some 10], [some 0], by rw [hrun], by rw [href], .cons rfl .nil⟩
  refine ⟨ref, run, hn, ?_, ?_⟩
  · have := C107_verdict_partial kind fastmath verbose _ _ hn
    rw [← Bool.not_eq_true, this]
    intro h
    obtain ⟨s, t, hs, ht, hf⟩ := h "E_r" (by simp [compared])
    rw [hrun, Option.some.injEq] at hs
    rw [href, Option.some.injEq] at ht
    subst hs ht
    cases hf with
    | cons h _ =>
      unfold Near at h
      norm_num at h
  · obtain ⟨r, h1, -⟩ := fold_status (fun c => compareFiles ref run (kind.rtol fastmath) 1 verbose c kind.number) compared true (by
        intro c hc
        obtain ⟨s, t, hs, ht, hn⟩ := hn c hc
        obtain ⟨b, hb, -⟩ := compare_sameNaN ht hs hn (kind.rtol fastmath) verbose
        exact ⟨b, hb⟩)
    rw [functionalTest_eq, testExample, components_eq, h1]

/-- Numbers of a component that are small in the reference are not tested: a run that writes zeros instead passes too.  In the
reference for `--type smoke` these are the density of the beam and the temperature of the ions. -/
theorem C107_small_violated (kind : TestKind) (fastmath verbose : Bool) (ref run : Files)
    (h : ∀ c ∈ compared, ∃ s t, run c kind.number = some s ∧ ref c kind.number = some t ∧ SameNaN s t)
    (hpass : (functionalTest kind fastmath verbose ref run).passed = true) (c : String) (hc : c ∈ compared) (t : Data)
    (ht : ref c kind.number = some t) (hsmall : ∀ y, some y ∈ t → |y| ≤ 1) :
    (functionalTest kind fastmath verbose ref
      (fun d n => if d = c ∧ n = kind.number then some (t.map fun x => x.map fun _ => 0) else run d n)).passed = true := by
  have hz : SameNaN (t.map fun x => x.map fun _ => 0) t := by
    unfold SameNaN
    rw [List.forall₂_map_left_iff, List.forall₂_same]
    intro x _
    cases x <;> rfl
  rw [C107_verdict_partial kind fastmath verbose ref run h] at hpass
  rw [C107_verdict_partial]
  · intro d hd
    by_cases e : d = c
    · subst e
      rw [if_pos ⟨rfl, rfl⟩, ht]
      refine ⟨_, t, rfl, rfl, ?_⟩
      rw [List.forall₂_map_left_iff, List.forall₂_same]
      intro x hx
      cases x with
      | none => trivial
      | some y =>
        have h1 := hsmall y hx
        have h2 : 0 ≤ kind.rtol fastmath := by
          unfold TestKind.rtol
          cases kind <;> cases fastmath <;> norm_num
        have h3 := mul_nonneg h2 (abs_nonneg y)
        show |(0 : ℝ) - y| ≤ 1 + kind.rtol fastmath * |y|
        rw [zero_sub, abs_neg]
        linarith
    · rw [if_neg fun h => e h.1]
      exact hpass d hd
  · intro d hd
    by_cases e : d = c
    · subst e
      exact ⟨_, t, if_pos ⟨rfl, rfl⟩, ht, hz⟩
    · obtain ⟨s, t', h1, h2, h3⟩ := h d hd
      exact ⟨s, t', by rw [if_neg fun h => e h.1]; exact h1, h2, h3⟩

/-- Numbers in wrong places pass when other entries are NaN. -/
theorem C107_nan_violated (kind : TestKind) (fastmath verbose : Bool) : ∃ ref run : Files,
    (functionalTest kind fastmath verbose ref run).passed = true ∧
    ¬ ∀ c ∈ compared, Agrees (kind.rtol fastmath) (run c kind.number) (ref c kind.number) := by
  refine ⟨fun _ _ => some [some 5, none], fun _ _ => some [none, some 5], ?_, ?_⟩
  · have hc : ∀ c n, compareFiles (fun _ _ => some [some 5, none]) (fun _ _ => some [none, some 5]) (kind.rtol fastmath) 1 verbose c n
        = some true := by
      intro c n
      have h2 : 0 ≤ kind.rtol fastmath := by
        unfold TestKind.rtol
        cases kind <;> cases fastmath <;> norm_num
      have h3 : 0 ≤ 1 + kind.rtol fastmath * 5 := by positivity
      unfold compareFiles allclose broadcast
      simp [List.reduceOption, h3]
    obtain ⟨r, h1, h2⟩ := fold_status (fun c => compareFiles (fun _ _ => some [some 5, none]) (fun _ _ => some [none, some 5])
      (kind.rtol fastmath) 1 verbose c kind.number) compared true (fun c _ => ⟨_, hc c _⟩)
    rw [functionalTest_eq, testExample, components_eq, h1]
    exact h2.2 ⟨rfl, fun c _ => hc c _⟩
  · intro h
    obtain ⟨s, t, hs, ht, hf⟩ := h "E_r" (by simp [compared])
    simp only [Option.some.injEq] at hs ht
    subst hs ht
    cases hf with
    | cons h _ => exact h

/-! Not vacuous: a reference with numbers and NaN, a run that passes and one that does not. -/

example : ∃ ref run run' : Files,
    (∀ c ∈ compared, ∃ s t, run c 4 = some s ∧ ref c 4 = some t ∧ SameNaN s t) ∧
    (∀ c ∈ compared, ∃ s t, run' c 4 = some s ∧ ref c 4 = some t ∧ SameNaN s t) ∧
    (functionalTest .smoke false false ref run).passed = true ∧ (functionalTest .smoke false false ref run').passed = false := by
  have a1 : ∀ c ∈ compared, ∃ s t : Data, (fun (_ : String) (_ : ℕ) => some [some (3000 : ℝ), none]) c 4 = some s ∧
      (fun (_ : String) (_ : ℕ) => some [some (3002 : ℝ), none]) c 4 = some t ∧ SameNaN s t :=
    fun c _ => ⟨_, _, rfl, rfl, .cons rfl (.cons rfl .nil)⟩
  have a2 : ∀ c ∈ compared, ∃ s t : Data, (fun (_ : String) (_ : ℕ) => some [some (3020 : ℝ), none]) c 4 = some s ∧
      (fun (_ : String) (_ : ℕ) => some [some (3002 : ℝ), none]) c 4 = some t ∧ SameNaN s t :=
    fun c _ => ⟨_, _, rfl, rfl, .cons rfl (.cons rfl .nil)⟩
  refine ⟨fun _ _ => some [some 3002, none], fun _ _ => some [some 3000, none], fun _ _ => some [some 3020, none], a1, a2, ?_, ?_⟩
  · rw [C107_verdict_partial .smoke false false _ _ a1]
    intro c _
    refine ⟨_, _, rfl, rfl, .cons ?_ (.cons trivial .nil)⟩
    show |(3000 : ℝ) - 3002| ≤ 1 + 1 / 1000 * |(3002 : ℝ)|
    norm_num [abs_of_pos, abs_of_neg]
  · rw [← Bool.not_eq_true, C107_verdict_partial .smoke false false _ _ a2]
    intro h
    obtain ⟨s, t, hs, ht, hf⟩ := h "E_r" (by simp [compared])
    simp only [Option.some.injEq] at hs ht
    subst hs ht
    cases hf with
    | cons h _ =>
      have h : |(3020 : ℝ) - 3002| ≤ 1 + 1 / 1000 * |(3002 : ℝ)| := h
      norm_num [abs_of_pos] at h

end Verif
