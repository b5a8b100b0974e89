import Verif.PlasmaProps
import Mathlib.Probability.ProductMeasure
import Mathlib.MeasureTheory.Function.Floor
import Mathlib.MeasureTheory.Measure.Lebesgue.Basic
import Mathlib.Analysis.SpecificLimits.Basic

/-!
# C91: with which probabilities energies are drawn

The two draws of a round of the rejection loop (src/math/maxwellJuttner.cpp:360-394) have some law `ρ`, and different
rounds are independent: this is what a random generator promises.
-/

namespace Verif

open MeasureTheory

/-! ## Specification -/

/-- all sequences of rounds, with the probability of independent rounds -/
noncomputable abbrev Rounds (ρ : Measure (ℝ × ℝ)) [IsProbabilityMeasure ρ] : Measure (ℕ → ℝ × ℝ) :=
  Measure.infinitePi fun _ => ρ

/-- the first `n` rounds -/
def firstRounds (ω : ℕ → ℝ × ℝ) (n : ℕ) : List (ℝ × ℝ) := (List.range n).map ω

/-! ## Rounds -/

/-- the value of `gamma` for a draw in range -/
noncomputable def guessOf (T u : ℝ) : ℝ := T * Real.exp (interp lnInvH (mjArg T u))

theorem interp_measurable (t : List ℤ) : Measurable (interp t) := by
  have h : ∀ f : ℕ → ℝ, Measurable fun I : ℝ => f ⌊I⌋₊ := fun f =>
    (measurable_of_countable f).comp Nat.measurable_floor
  exact (h fun n => ((t.getD n 0 : ℤ) : ℝ) / 10 ^ 21).add
    ((measurable_id.sub (h fun n => (n : ℝ))).mul
      (h fun n => ((t.getD (n + 1) 0 : ℤ) : ℝ) / 10 ^ 21 - ((t.getD n 0 : ℤ) : ℝ) / 10 ^ 21))

theorem guessOf_measurable (T : ℝ) : Measurable (guessOf T) := by
  have : Measurable (mjArg T) := by unfold mjArg; fun_prop
  exact (Real.measurable_exp.comp ((interp_measurable lnInvH).comp this)).const_mul T

/-- the draws of a round that is rejected -/
def RejectSet (T : ℝ) : Set (ℝ × ℝ) :=
  {d | UniformDraw d.1 ∧ 1 ≤ guessOf T d.1 ^ 2 ∧ Real.sqrt (1 - 1 / guessOf T d.1 ^ 2) ≤ d.2}

/-- the draws of a round that is accepted with an energy in `A` -/
def AcceptSet (T : ℝ) (A : Set ℝ) : Set (ℝ × ℝ) :=
  {d | UniformDraw d.1 ∧ ¬ (1 ≤ guessOf T d.1 ^ 2 ∧ Real.sqrt (1 - 1 / guessOf T d.1 ^ 2) ≤ d.2) ∧ guessOf T d.1 - 1 ∈ A}

theorem draw_measurable : MeasurableSet {d : ℝ × ℝ | UniformDraw d.1} :=
  (measurableSet_le measurable_const measurable_fst).inter (measurableSet_le measurable_fst measurable_const)

theorem rejected_measurable (T : ℝ) :
    MeasurableSet {d : ℝ × ℝ | 1 ≤ guessOf T d.1 ^ 2 ∧ Real.sqrt (1 - 1 / guessOf T d.1 ^ 2) ≤ d.2} := by
  have h : Measurable fun d : ℝ × ℝ => guessOf T d.1 ^ 2 := ((guessOf_measurable T).comp measurable_fst).pow_const 2
  exact (measurableSet_le measurable_const h).inter
    (measurableSet_le (Real.continuous_sqrt.measurable.comp ((h.const_div 1).const_sub 1)) measurable_snd)

theorem rejectSet_measurable (T : ℝ) : MeasurableSet (RejectSet T) := draw_measurable.inter (rejected_measurable T)

theorem acceptSet_measurable (T : ℝ) {A : Set ℝ} (hA : MeasurableSet A) : MeasurableSet (AcceptSet T A) :=
  draw_measurable.inter ((rejected_measurable T).compl.inter
    ((((guessOf_measurable T).comp measurable_fst).sub_const 1) hA))

theorem round_one {T : ℝ} (h1 : 0.1 ≤ T) (h2 : T ≤ 3000) {d : ℝ × ℝ} (hd : UniformDraw d.1) (A : Set ℝ) :
    (∃ e, SampleRel T [d] (some e) ∧ e ∈ A) ↔ d ∈ AcceptSet T A := by
  have hg : gammaGuess T d.1 = some (some (guessOf T d.1)) := gammaGuess_arg h1 h2 hd
  constructor
  · rintro ⟨e, h, hA⟩
    rcases h' : (some e : Option ℝ) with _ | e'
    · cases h'
    cases h' 
    generalize hl : [d] = l at h
    generalize he : some e = x at h
    cases h with
    | accept U V gamma h hV =>
      obtain rfl : d = (U, V) := by simpa using hl
      rw [hg] at h
      obtain rfl := Option.some.inj h
      obtain rfl : e = guessOf T U - 1 := Option.some.inj he
      exact ⟨hd, fun hc => hV ⟨_, rfl, hc.1, hc.2⟩, hA⟩
    | again U V gamma h hV l e t =>
      obtain ⟨-, rfl⟩ : d = (U, V) ∧ l = [] := by simpa [eq_comm] using hl
      cases t
  · rintro ⟨-, h, hA⟩
    obtain ⟨U, V⟩ := d
    exact ⟨_, SampleRel.accept U V _ hg (by
      rintro ⟨g, e, a, b⟩
      obtain rfl := Option.some.inj e
      exact h ⟨a, b⟩), hA⟩

theorem round_many {T : ℝ} (h1 : 0.1 ≤ T) (h2 : T ≤ 3000) (A : Set ℝ) : ∀ l : List (ℝ × ℝ), (∀ d ∈ l, UniformDraw d.1) →
    ((∃ e, SampleRel T l (some e) ∧ e ∈ A) ↔ ∃ pre d, l = pre ++ [d] ∧ (∀ x ∈ pre, x ∈ RejectSet T) ∧ d ∈ AcceptSet T A) := by
  intro l
  induction l with
  | nil =>
    intro _
    constructor
    · rintro ⟨e, h, -⟩; cases h
    · rintro ⟨pre, d, h, -⟩; simp at h
  | cons d l ih =>
    intro hl
    have hd : UniformDraw d.1 := hl d (by simp)
    have hg : gammaGuess T d.1 = some (some (guessOf T d.1)) := gammaGuess_arg h1 h2 hd
    have ih := ih fun x hx => hl x (by simp [hx])
    constructor
    · rintro ⟨e, h, hA⟩
      generalize hl' : d :: l = l' at h
      generalize he : some e = x at h
      cases h with
      | accept U V gamma h hV =>
        obtain ⟨rfl, rfl⟩ : d = (U, V) ∧ l = [] := by simpa using hl'
        refine ⟨[], (U, V), rfl, by simp, (round_one h1 h2 hd A).1 ⟨e, ?_, hA⟩⟩
        rw [he]
        exact SampleRel.accept U V gamma h hV
      | again U V gamma h hV l'' e' t =>
        obtain ⟨rfl, rfl⟩ : d = (U, V) ∧ l = l'' := by simpa using hl'
        subst he
        obtain ⟨pre, x, rfl, hp, hx⟩ := ih.1 ⟨e, t, hA⟩
        refine ⟨(U, V) :: pre, x, rfl, ?_, hx⟩
        intro y hy
        rcases List.mem_cons.1 hy with rfl | hy
        · rw [hg] at h
          obtain rfl := Option.some.inj h
          obtain ⟨g, e, a, b⟩ := hV
          obtain rfl := Option.some.inj e
          exact ⟨hd, a, b⟩
        · exact hp y hy
    · rintro ⟨pre, x, e, hp, hx⟩
      cases pre with
      | nil =>
        obtain ⟨rfl, rfl⟩ : d = x ∧ l = [] := by simpa using e
        exact (round_one h1 h2 hd A).2 hx
      | cons y pre =>
        obtain ⟨rfl, rfl⟩ : d = y ∧ l = pre ++ [x] := by simpa using e
        obtain ⟨e', t, hA⟩ := ih.2 ⟨pre, x, rfl, fun z hz => hp z (by simp [hz]), hx⟩
        obtain ⟨U, V⟩ := d
        obtain ⟨-, a, b⟩ := hp (U, V) (by simp)
        exact ⟨e', SampleRel.again U V _ hg ⟨_, rfl, a, b⟩ _ _ t, hA⟩

/-- the rounds up to and including round `m` are all that is needed, and give an energy in `A` -/
def EndsAt (T : ℝ) (A : Set ℝ) (m : ℕ) : Set (ℕ → ℝ × ℝ) :=
  Set.pi (Finset.range (m + 1)) fun i => if i < m then RejectSet T else AcceptSet T A

theorem endsAt_iff {T : ℝ} (A : Set ℝ) (m : ℕ) (ω : ℕ → ℝ × ℝ) :
    ω ∈ EndsAt T A m ↔ (∀ i < m, ω i ∈ RejectSet T) ∧ ω m ∈ AcceptSet T A := by
  unfold EndsAt
  rw [Set.mem_pi]
  constructor
  · intro h
    refine ⟨fun i hi => ?_, ?_⟩
    · have := h i (by simp; omega)
      rwa [if_pos hi] at this
    · have := h m (by simp)
      rwa [if_neg (lt_irrefl _)] at this
  · rintro ⟨h, h'⟩ i hi
    have hi : i < m + 1 := by simpa using hi
    by_cases hm : i < m
    · rw [if_pos hm]; exact h i hm
    · obtain rfl : i = m := by omega
      rwa [if_neg hm]

theorem ends_iff {T : ℝ} (h1 : 0.1 ≤ T) (h2 : T ≤ 3000) (A : Set ℝ) {ω : ℕ → ℝ × ℝ} (hω : ∀ i, UniformDraw (ω i).1) :
    (∃ n e, SampleRel T (firstRounds ω n) (some e) ∧ e ∈ A) ↔ ω ∈ ⋃ m, EndsAt T A m := by
  rw [Set.mem_iUnion]
  constructor
  · rintro ⟨n, h⟩
    obtain ⟨pre, d, e, hp, hd⟩ := (round_many h1 h2 A (firstRounds ω n) (fun d hd => by
      obtain ⟨i, -, rfl⟩ := List.mem_map.1 hd; exact hω i)).1 h
    cases n with
    | zero => simp [firstRounds] at e
    | succ m =>
      rw [firstRounds, List.range_succ, List.map_append, List.map_singleton] at e
      obtain ⟨rfl, e2⟩ := List.append_inj' e rfl
      obtain rfl : ω m = d := by simpa using e2
      exact ⟨m, (endsAt_iff A m ω).2 ⟨fun i hi => hp _ (List.mem_map.2 ⟨i, List.mem_range.2 hi, rfl⟩), hd⟩⟩
  · rintro ⟨m, h⟩
    obtain ⟨h, h'⟩ := (endsAt_iff A m ω).1 h
    refine ⟨m + 1, (round_many h1 h2 A (firstRounds ω (m + 1)) (fun d hd => by
      obtain ⟨i, -, rfl⟩ := List.mem_map.1 hd; exact hω i)).2 ⟨firstRounds ω m, ω m, ?_, ?_, h'⟩⟩
    · rw [firstRounds, List.range_succ, List.map_append, List.map_singleton]; rfl
    · intro x hx
      obtain ⟨i, hi, rfl⟩ := List.mem_map.1 hx
      exact h i (List.mem_range.1 hi)

theorem endsAt_measure {T : ℝ} {A : Set ℝ} (hA : MeasurableSet A) (ρ : Measure (ℝ × ℝ)) [IsProbabilityMeasure ρ] (m : ℕ) :
    Rounds ρ (EndsAt T A m) = ρ (RejectSet T) ^ m * ρ (AcceptSet T A) := by
  unfold EndsAt Rounds
  rw [Measure.infinitePi_pi]
  · rw [Finset.prod_range_succ, if_neg (lt_irrefl _), Finset.prod_congr rfl (g := fun _ => ρ (RejectSet T))
      (fun i hi => by rw [if_pos (Finset.mem_range.1 hi)]), Finset.prod_const, Finset.card_range]
  · intro i _
    split_ifs
    · exact rejectSet_measurable T
    · exact acceptSet_measurable T hA

theorem endsAt_disjoint (T : ℝ) (A : Set ℝ) : Pairwise (Function.onFun Disjoint (EndsAt T A)) := by
  have key : ∀ m n, m < n → Disjoint (EndsAt T A m) (EndsAt T A n) := by
    intro m n h
    rw [Set.disjoint_left]
    intro ω hm hn
    obtain ⟨-, a⟩ := (endsAt_iff A m ω).1 hm
    obtain ⟨b, -⟩ := (endsAt_iff A n ω).1 hn
    exact a.2.1 (b m h).2
  intro m n h
  rcases lt_or_gt_of_ne h with h | h
  · exact key m n h
  · exact (key n m h).symm

theorem ends_measure {T : ℝ} {A : Set ℝ} (hA : MeasurableSet A) (ρ : Measure (ℝ × ℝ)) [IsProbabilityMeasure ρ] :
    Rounds ρ (⋃ m, EndsAt T A m) = ρ (AcceptSet T A) / (1 - ρ (RejectSet T)) := by
  rw [measure_iUnion (endsAt_disjoint T A) (fun m => MeasurableSet.pi (Finset.countable_toSet _) (fun i _ => by
    split_ifs
    · exact rejectSet_measurable T
    · exact acceptSet_measurable T hA))]
  simp_rw [endsAt_measure hA]
  rw [ENNReal.tsum_mul_right, ENNReal.tsum_geometric, ENNReal.div_eq_inv_mul]

theorem draws_ae {ρ : Measure (ℝ × ℝ)} [IsProbabilityMeasure ρ] (hρ : ∀ᵐ d ∂ρ, UniformDraw d.1) :
    ∀ᵐ ω ∂Rounds ρ, ∀ i, UniformDraw (ω i).1 := by
  rw [ae_all_iff]
  intro i
  exact (measurePreserving_eval_infinitePi (fun _ : ℕ => ρ) i).quasiMeasurePreserving.ae hρ

theorem accept_measure {T : ℝ} {ρ : Measure (ℝ × ℝ)} [IsProbabilityMeasure ρ] (hρ : ∀ᵐ d ∂ρ, UniformDraw d.1) :
    ρ (AcceptSet T Set.univ) = 1 - ρ (RejectSet T) := by
  rw [← prob_compl_eq_one_sub (rejectSet_measurable T)]
  apply measure_congr
  filter_upwards [hρ] with d hd
  apply propext
  constructor
  · rintro ⟨-, h, -⟩ h'
    exact h h'.2
  · intro h
    exact ⟨hd, fun h' => h ⟨hd, h'⟩, trivial⟩

/-- **C91** (law of the energies). An energy has the probabilities of the energy of one round, given that this round is
accepted. -/
theorem C91_law (T : ℝ) (h1 : 0.1 ≤ T) (h2 : T ≤ 3000) (ρ : Measure (ℝ × ℝ)) [IsProbabilityMeasure ρ]
    (hρ : ∀ᵐ d ∂ρ, UniformDraw d.1) (A : Set ℝ) (hA : MeasurableSet A) :
    Rounds ρ {ω | ∃ n e, SampleRel T (firstRounds ω n) (some e) ∧ e ∈ A}
      = ρ {d | ∃ e, SampleRel T [d] (some e) ∧ e ∈ A} / ρ {d | ∃ e, SampleRel T [d] (some e)} := by
  have e1 : Rounds ρ {ω | ∃ n e, SampleRel T (firstRounds ω n) (some e) ∧ e ∈ A} = Rounds ρ (⋃ m, EndsAt T A m) := by
    apply measure_congr
    filter_upwards [draws_ae hρ] with ω hω
    exact propext (ends_iff h1 h2 A hω)
  have e2 : ρ {d | ∃ e, SampleRel T [d] (some e) ∧ e ∈ A} = ρ (AcceptSet T A) := by
    apply measure_congr
    filter_upwards [hρ] with d hd
    exact propext (round_one h1 h2 hd A)
  have e3 : ρ {d | ∃ e, SampleRel T [d] (some e)} = ρ (AcceptSet T Set.univ) := by
    apply measure_congr
    filter_upwards [hρ] with d hd
    have := round_one h1 h2 hd Set.univ
    simp only [Set.mem_univ, and_true] at this
    exact propext this
  rw [e1, e2, e3, ends_measure hA, accept_measure hρ]

/-- **C91** (the loop ends). If a round is accepted with positive probability, the loop ends with probability one. -/
theorem C91_ends (T : ℝ) (h1 : 0.1 ≤ T) (h2 : T ≤ 3000) (ρ : Measure (ℝ × ℝ)) [IsProbabilityMeasure ρ]
    (hρ : ∀ᵐ d ∂ρ, UniformDraw d.1) (hp : ρ {d | ∃ e, SampleRel T [d] (some e)} ≠ 0) :
    ∀ᵐ ω ∂Rounds ρ, ∃ n e, SampleRel T (firstRounds ω n) (some e) := by
  have h := C91_law T h1 h2 ρ hρ Set.univ MeasurableSet.univ
  simp only [Set.mem_univ, and_true] at h
  rw [ENNReal.div_self hp (measure_ne_top _ _)] at h
  have hm : NullMeasurableSet {ω | ∃ n e, SampleRel T (firstRounds ω n) (some e)} (Rounds ρ) := by
    have : {ω | ∃ n e, SampleRel T (firstRounds ω n) (some e)} =ᵐ[Rounds ρ] ⋃ m, EndsAt T Set.univ m := by
      filter_upwards [draws_ae hρ] with ω hω
      have := ends_iff h1 h2 Set.univ hω
      simp only [Set.mem_univ, and_true] at this
      exact propext this
    refine NullMeasurableSet.congr (MeasurableSet.nullMeasurableSet ?_) this.symm
    refine MeasurableSet.iUnion fun m => MeasurableSet.pi (Finset.countable_toSet _) (fun i _ => ?_)
    split_ifs
    · exact rejectSet_measurable T
    · exact acceptSet_measurable T MeasurableSet.univ
  exact (prob_compl_eq_zero_iff₀ hm).2 h

/-- **C91** (how long it takes). The probability that the loop needs more than `n` rounds is the probability of a rejection to
the power `n`. -/
theorem C91_rounds (T : ℝ) (h1 : 0.1 ≤ T) (h2 : T ≤ 3000) (ρ : Measure (ℝ × ℝ)) [IsProbabilityMeasure ρ]
    (hρ : ∀ᵐ d ∂ρ, UniformDraw d.1) (n : ℕ) :
    Rounds ρ {ω | ∀ k ≤ n, ¬ ∃ e, SampleRel T (firstRounds ω k) (some e)}
      = (1 - ρ {d | ∃ e, SampleRel T [d] (some e)}) ^ n := by
  have e3 : ρ {d | ∃ e, SampleRel T [d] (some e)} = ρ (AcceptSet T Set.univ) := by
    apply measure_congr
    filter_upwards [hρ] with d hd
    have := round_one h1 h2 hd Set.univ
    simp only [Set.mem_univ, and_true] at this
    exact propext this
  have e4 : 1 - ρ (AcceptSet T Set.univ) = ρ (RejectSet T) := by
    rw [accept_measure hρ]
    exact ENNReal.sub_sub_cancel ENNReal.one_ne_top prob_le_one
  have e5 : Rounds ρ {ω | ∀ k ≤ n, ¬ ∃ e, SampleRel T (firstRounds ω k) (some e)}
      = Rounds ρ (Set.pi (Finset.range n) fun _ => RejectSet T) := by
    apply measure_congr
    filter_upwards [draws_ae hρ] with ω hω
    apply propext
    change (∀ k ≤ n, ¬ ∃ e, SampleRel T (firstRounds ω k) (some e)) ↔ ω ∈ Set.pi (Finset.range n) fun _ => RejectSet T
    rw [Set.mem_pi]
    have key : ∀ k, (∃ e, SampleRel T (firstRounds ω k) (some e)) ↔
        ∃ m, k = m + 1 ∧ (∀ i < m, ω i ∈ RejectSet T) ∧ ω m ∈ AcceptSet T Set.univ := by
      intro k
      have := round_many h1 h2 Set.univ (firstRounds ω k) (fun d hd => by
        obtain ⟨i, -, rfl⟩ := List.mem_map.1 hd; exact hω i)
      simp only [Set.mem_univ, and_true] at this
      rw [this]
      constructor
      · rintro ⟨pre, d, e, hp, hd⟩
        cases k with
        | zero => simp [firstRounds] at e
        | succ m =>
          rw [firstRounds, List.range_succ, List.map_append, List.map_singleton] at e
          obtain ⟨rfl, e2⟩ := List.append_inj' e rfl
          obtain rfl : ω m = d := by simpa using e2
          exact ⟨m, rfl, fun i hi => hp _ (List.mem_map.2 ⟨i, List.mem_range.2 hi, rfl⟩), hd⟩
      · rintro ⟨m, rfl, hr, ha⟩
        refine ⟨firstRounds ω m, ω m, ?_, ?_, ha⟩
        · rw [firstRounds, List.range_succ, List.map_append, List.map_singleton]; rfl
        · intro x hx
          obtain ⟨i, hi, rfl⟩ := List.mem_map.1 hx
          exact hr i (List.mem_range.1 hi)
    constructor
    · intro h i hi
      have hi : i < n := by simpa using hi
      induction i using Nat.strong_induction_on with
      | _ i ih =>
        by_contra hc
        refine h (i + 1) (by omega) ((key _).2 ⟨i, rfl, fun j hj => ih j hj (by simp; omega) (by omega), hω i, ?_, trivial⟩)
        exact fun h' => hc ⟨hω i, h'⟩
    · intro h k hk hc
      obtain ⟨m, rfl, -, ha⟩ := (key k).1 hc
      exact ha.2.1 (h m (by simp; omega)).2
  rw [e5, e3, e4, Measure.infinitePi_pi _ (fun i _ => rejectSet_measurable T), Finset.prod_const, Finset.card_range]

/-! ## Uniform draws -/

/-- the law of `uniform`, src/math/rand.cpp:10-14 -/
noncomputable abbrev unif : Measure ℝ := volume.restrict (Set.Ico (0 : ℝ) 1)

instance : IsProbabilityMeasure unif := ⟨by rw [Measure.restrict_apply_univ, Real.volume_Ico]; norm_num⟩

theorem unif_lt {b : ℝ} (h1 : b ≤ 1) : unif {v | v < b} = ENNReal.ofReal b := by
  have h0 : MeasurableSet {v : ℝ | v < b} := measurableSet_Iio
  rw [Measure.restrict_apply h0]
  have : {v : ℝ | v < b} ∩ Set.Ico 0 1 = Set.Ico 0 b := by
    ext v
    simp only [Set.mem_inter_iff, Set.mem_setOf_eq, Set.mem_Ico]
    constructor
    · rintro ⟨a, b, c⟩; exact ⟨b, a⟩
    · rintro ⟨a, b⟩; exact ⟨b, a, by linarith⟩
  rw [this, Real.volume_Ico, sub_zero]

theorem guessOf_gt {T u : ℝ} (h1 : 0.1 ≤ T) (h2 : T ≤ 3000) (hg : GoodTemperature T) (h : UniformDraw u) :
    1 < guessOf T u := guess_gt h1 h2 hg h

/-- **C91** (the weight of an energy). With a second draw that is uniform and independent of the first, a round is accepted
with an energy in `A` with the mean over these energies of the velocity (in units of that of light) that belongs to them. -/
theorem C91_weight (T : ℝ) (h1 : 0.1 ≤ T) (h2 : T ≤ 3000) (hg : GoodTemperature T) (μ : Measure ℝ) [IsProbabilityMeasure μ]
    (hμ : ∀ᵐ u ∂μ, UniformDraw u) (A : Set ℝ) (hA : MeasurableSet A) (γ : ℝ → ℝ)
    (hγ : ∀ u, UniformDraw u → gammaGuess T u = some (some (γ u))) :
    μ.prod unif {d | ∃ e, SampleRel T [d] (some e) ∧ e ∈ A}
      = ∫⁻ u in {u | γ u - 1 ∈ A}, ENNReal.ofReal (Real.sqrt (1 - 1 / γ u ^ 2)) ∂μ := by
  have hd : ∀ᵐ d ∂μ.prod unif, UniformDraw d.1 :=
    (measurePreserving_fst (μ := μ) (ν := unif)).quasiMeasurePreserving.ae hμ
  have hγ' : ∀ u, UniformDraw u → γ u = guessOf T u := fun u hu => by
    have := hγ u hu
    rw [gammaGuess_arg h1 h2 hu] at this
    exact (Option.some.inj (Option.some.inj this)).symm
  have e1 : μ.prod unif {d | ∃ e, SampleRel T [d] (some e) ∧ e ∈ A} = μ.prod unif (AcceptSet T A) := by
    apply measure_congr
    filter_upwards [hd] with d hd
    exact propext (round_one h1 h2 hd A)
  have hS : MeasurableSet {u | guessOf T u - 1 ∈ A} := ((guessOf_measurable T).sub_const 1) hA
  have e2 : ∫⁻ u in {u | γ u - 1 ∈ A}, ENNReal.ofReal (Real.sqrt (1 - 1 / γ u ^ 2)) ∂μ
      = ∫⁻ u in {u | guessOf T u - 1 ∈ A}, ENNReal.ofReal (Real.sqrt (1 - 1 / guessOf T u ^ 2)) ∂μ := by
    have : μ.restrict {u | γ u - 1 ∈ A} = μ.restrict {u | guessOf T u - 1 ∈ A} := by
      apply Measure.restrict_congr_set
      filter_upwards [hμ] with u hu
      apply propext
      change γ u - 1 ∈ A ↔ guessOf T u - 1 ∈ A
      rw [hγ' u hu]
    rw [this]
    apply lintegral_congr_ae
    filter_upwards [ae_restrict_of_ae hμ] with u hu
    rw [hγ' u hu]
  rw [e1, e2, Measure.prod_apply (acceptSet_measurable T hA), ← lintegral_indicator hS]
  apply lintegral_congr_ae
  filter_upwards [hμ] with u hu
  have hgt := guessOf_gt h1 h2 hg hu
  by_cases hA' : guessOf T u - 1 ∈ A
  · rw [Set.indicator_of_mem (by exact hA')]
    have : Prod.mk u ⁻¹' AcceptSet T A = {v | v < Real.sqrt (1 - 1 / guessOf T u ^ 2)} := by
      ext v
      constructor
      · rintro ⟨-, h, -⟩
        by_contra hc
        exact h ⟨one_le_pow₀ hgt.le, not_lt.1 hc⟩
      · intro h
        exact ⟨hu, fun h' => absurd h'.2 (not_le.2 h), hA'⟩
    rw [this, unif_lt]
    apply Real.sqrt_le_one.2
    have : 0 ≤ 1 / guessOf T u ^ 2 := by positivity
    linarith
  · rw [Set.indicator_of_notMem (by exact hA')]
    have : Prod.mk u ⁻¹' AcceptSet T A = ∅ := by
      ext v
      constructor
      · rintro ⟨-, -, h⟩; exact hA' h
      · intro h; cases h
    rw [this, measure_empty]

/-- **C91** (the loop ends). With uniform and independent draws the loop ends with probability one, at every temperature for which
the draw zero gives no negative energy. -/
theorem C91_uniform_ends (T : ℝ) (h1 : 0.1 ≤ T) (h2 : T ≤ 3000) (hg : GoodTemperature T) (μ : Measure ℝ)
    [IsProbabilityMeasure μ] (hμ : ∀ᵐ u ∂μ, UniformDraw u) :
    ∀ᵐ ω ∂Rounds (μ.prod unif), ∃ n e, SampleRel T (firstRounds ω n) (some e) := by
  have hd : ∀ᵐ d ∂μ.prod unif, UniformDraw d.1 :=
    (measurePreserving_fst (μ := μ) (ν := unif)).quasiMeasurePreserving.ae hμ
  apply C91_ends T h1 h2 _ hd
  have h := C91_weight T h1 h2 hg μ hμ Set.univ MeasurableSet.univ (guessOf T) (fun u hu => gammaGuess_arg h1 h2 hu)
  simp only [Set.mem_univ, and_true, Set.ofPred_true, Measure.restrict_univ] at h
  rw [h]
  intro h0
  rw [lintegral_eq_zero_iff (by
    have := guessOf_measurable T
    fun_prop)] at h0
  have : ∀ᵐ u ∂μ, False := by
    filter_upwards [h0, hμ] with u h0 hu
    have hgt := guessOf_gt h1 h2 hg hu
    have : 0 < Real.sqrt (1 - 1 / guessOf T u ^ 2) := by
      apply Real.sqrt_pos.2
      have : 1 / guessOf T u ^ 2 < 1 := by
        rw [div_lt_one (by positivity)]
        nlinarith
      linarith
    have h0 : ENNReal.ofReal (Real.sqrt (1 - 1 / guessOf T u ^ 2)) = 0 := h0
    rw [ENNReal.ofReal_eq_zero] at h0
    linarith
  rw [Filter.eventually_false_iff_eq_bot, ae_eq_bot] at this
  exact IsProbabilityMeasure.ne_zero μ this

/-- uniform draws that are never above the largest double below one -/
noncomputable abbrev unifDouble : Measure ℝ := unif.map fun u => u * (1 - 1 / 2 ^ 53)

theorem unifDouble_draw : ∀ᵐ u ∂unifDouble, UniformDraw u := by
  have hm : MeasurableSet {u | UniformDraw u} := (measurableSet_le measurable_const measurable_id).inter
    (measurableSet_le measurable_id measurable_const)
  refine (ae_map_iff (by fun_prop) hm).2 ?_
  filter_upwards [ae_restrict_mem (μ := volume) (measurableSet_Ico (a := (0 : ℝ)) (b := 1))] with u hu
  obtain ⟨a, b⟩ := hu
  constructor
  · apply mul_nonneg a; norm_num
  · norm_num
    linarith

instance : IsProbabilityMeasure unifDouble := Measure.isProbabilityMeasure_map (by fun_prop)

/-- Not vacuous: at the temperature one. -/
example : ∀ᵐ ω ∂Rounds (unifDouble.prod unif), ∃ n e, SampleRel 1 (firstRounds ω n) (some e) :=
  C91_uniform_ends 1 (by norm_num) (by norm_num) good_one unifDouble unifDouble_draw

end Verif
