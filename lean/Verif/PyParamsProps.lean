import Verif.PyParams
import Verif.ConfigSafe
import Mathlib.Data.List.TakeWhile

/-!
# The tools read the configuration as the simulator does (C71)
-/

namespace Verif

/-! ## Specification -/

/-- Elements of this name occur in `e` as children only, not deeper. -/
def OnlyChildren (e : Xml) (n : String) : Prop := ∀ c ∈ e.children, ∀ y ∈ c.children, ∀ x, Xml.Sub y x → x.name ≠ n

/-- The layout that the documentation shows: no setting is found deeper than at its place, and the mode is not given
as a number. -/
structure Documented (root : Xml) : Prop where
  top : ∀ n ∈ ["debug", "use_hdf5", "geometry", "file_save_parameters", "particle_beam", "particles", "time"],
    OnlyChildren root n
  inner : ∀ b, ∀ p ∈ required b, ∀ s ∈ root.named p.1, OnlyChildren s p.2
  output : ∀ n ∈ ["probes", "result_path", "data_root", "debug_data_root"], ∀ s ∈ root.named "file_save_parameters",
    OnlyChildren s n
  probe : ∀ s ∈ root.named "file_save_parameters", ∀ e ∈ s.named "probes", OnlyChildren e "probe"
  specie : ∀ s ∈ root.named "particles", OnlyChildren s "particle_specie"
  inSpecie : ∀ s ∈ root.named "particles", ∀ e ∈ s.named "particle_specie",
    ∀ n ∈ ["charge", "mass", "number_macro", "left_density", "right_density", "temperature"], OnlyChildren e n
  mode : ∀ x ∈ root.named "debug", ∀ t, x.text? = some t → ∀ c ∈ t, c.isDigit = false

def kindText : OKind → List Char
  | .frame => "frame".toList
  | .col => "col".toList
  | .row => "row".toList
  | .dot => "dot".toList
  | .mpframe => "mpframe".toList

/-- The same probe: type, component, schedule, the species if there is one, and the numbers of its window -/
structure SameProbe (a : ProbeDecl) (b : PyProbe) : Prop where
  kind : b.type = kindText a.kind
  component : b.component = a.component
  schedule : b.schedule = a.schedule
  specie : b.specie = a.specie ∨ (b.specie = [] ∧ a.specie = noneText)
  r_start : a.kind ≠ .col → b.r_start = a.start_r
  z_start : a.kind ≠ .row → b.z_start = a.start_z
  ends : a.kind = .frame ∨ a.kind = .mpframe → b.r_end = a.end_r ∧ b.z_end = a.end_z

/-- The same species (masses are not negative) -/
structure SameSpecie (debug : Bool) (a : SpecieSettings) (b : PySpecie) : Prop where
  name : b.name = a.name
  charge : b.charge = a.charge
  mass : 0 ≤ b.mass → b.mass = a.mass
  number_macro : debug = false → b.number_macro = a.number_macro
  left_density : b.left_density = a.left_density
  right_density : b.right_density = a.right_density
  temperature : b.temperature = a.temperature

/-- What both programs read is the same. -/
structure SameSettings (file : List Char) (c : Config) (p : PyParams) : Prop where
  nr : p.number_r_grid = c.geom.n_grid_r
  nz : p.number_z_grid = c.geom.n_grid_z
  r_size : p.r_size = c.geom.r_size
  z_size : p.z_size = c.geom.z_size
  probes : List.Forall₂ SameProbe c.probes p.probes
  data_root : c.dump.data_root = some p.data_root
  data_path : ∃ path, c.dump.result_path = some path ∧ p.data_path = pyDataPath file path
  fpf : 0 ≤ p.frames_per_file → p.frames_per_file = c.dump.frames_per_file
  density : p.bunch_density = c.beam.density
  radius : p.bunch_radius = c.beam.radius
  length : p.bunch_length = c.beam.length
  distance : p.bunches_distance = c.beam.bunches_distance
  velocity : p.beam_initial_velocity = c.beam.initial_velocity
  species : List.Forall₂ (SameSpecie c.debug) c.species p.particles
  start_time : p.start_time = c.time.start_time
  end_time : p.end_time = c.time.end_time
  step : p.step_interval = c.time.delta_t

/-! ## Elements -/

theorem Xml.subs_iff {e x : Xml} : x ∈ Xml.subs e ↔ Xml.Sub e x := by
  refine ⟨?_, Xml.Sub.mem⟩
  refine Xml.rec (motive_1 := fun e => x ∈ Xml.subs e → Xml.Sub e x)
    (motive_2 := fun l => x ∈ Xml.subsL l → ∃ y ∈ l, Xml.Sub y x) ?_ ?_ ?_ e
  · intro n as t cs ih h
    rw [Xml.subs, List.mem_cons] at h
    rcases h with rfl | h
    · exact .refl _
    · obtain ⟨y, hy, hs⟩ := ih h
      exact .child hy hs
  · intro h
    rw [Xml.subsL] at h
    cases h
  · intro c cs h1 h2 h
    rw [Xml.subsL, List.mem_append] at h
    rcases h with h | h
    · exact ⟨c, by simp, h1 h⟩
    · obtain ⟨y, hy, hs⟩ := h2 h
      exact ⟨y, by simp [hy], hs⟩

theorem subsL_only {n : String} : ∀ {l : List Xml}, (∀ c ∈ l, ∀ y ∈ c.children, ∀ x, Xml.Sub y x → x.name ≠ n) →
    (Xml.subsL l).filter (fun x => x.name = n) = l.filter fun x => x.name = n := by
  intro l
  induction l with
  | nil => intro _; rw [Xml.subsL]
  | cons c l ih =>
    intro h
    have h1 := ih fun y hy => h y (by simp [hy])
    rw [Xml.subsL, List.filter_append, h1]
    obtain ⟨m, as, t, cs⟩ := c
    rw [Xml.subs]
    have h2 : (Xml.subsL cs).filter (fun x => decide (x.name = n)) = [] := by
      rw [List.filter_eq_nil_iff]
      intro x hx hn
      have hn' : x.name = n := by simpa using hn
      have : ∀ {ll : List Xml}, x ∈ Xml.subsL ll → ∃ y ∈ ll, Xml.Sub y x := by
        intro ll
        induction ll with
        | nil => intro hh; rw [Xml.subsL] at hh; cases hh
        | cons a ll ih =>
          intro hh
          rw [Xml.subsL, List.mem_append] at hh
          rcases hh with hh | hh
          · exact ⟨a, by simp, Xml.subs_iff.1 hh⟩
          · obtain ⟨y, hy, hs⟩ := ih hh
            exact ⟨y, by simp [hy], hs⟩
      obtain ⟨y, hy, hs⟩ := this hx
      exact h (.elem m as t cs) (by simp) y hy x hs hn'
    rw [List.filter_cons, List.filter_cons, h2]
    split <;> simp

theorem byTag_only {e : Xml} {n : String} (h : OnlyChildren e n) : byTag e n = e.named n := subsL_only h

theorem docByTag_only {e : Xml} {n : String} (h : OnlyChildren e n) (hn : e.name ≠ n) : docByTag e n = e.named n := by
  rw [← byTag_only h]
  obtain ⟨m, as, t, cs⟩ := e
  unfold docByTag byTag
  rw [Xml.subs, List.filter_cons, if_neg (by simpa using hn)]
  rfl

/-! ## Texts -/

theorem strip_append (P : Char → Bool) (s : List Char) :
    ∃ b, (∀ c ∈ b, P c = true) ∧ s.dropWhile P = ((s.dropWhile P).reverse.dropWhile P).reverse ++ b := by
  refine ⟨((s.dropWhile P).reverse.takeWhile P).reverse, ?_, ?_⟩
  · intro c hc
    rw [List.mem_reverse] at hc
    exact List.mem_takeWhile_imp hc
  · rw [← List.reverse_append, List.takeWhile_append_dropWhile, List.reverse_reverse]

theorem takeWhile_tail {P : Char → Bool} {l b : List Char} (hb : ∀ c ∈ b.head?, P c = false) :
    (l ++ b).takeWhile P = l.takeWhile P := by
  induction l with
  | nil =>
    cases b with
    | nil => rfl
    | cons c b => simp [hb c (by simp)]
  | cons c l ih => simp only [List.cons_append, List.takeWhile_cons, ih]

theorem dropWhile_tail {P : Char → Bool} {l b : List Char} (hb : ∀ c ∈ b.head?, P c = false) :
    (l ++ b).dropWhile P = l.dropWhile P ++ b := by
  induction l with
  | nil =>
    cases b with
    | nil => rfl
    | cons c b => simp [hb c (by simp)]
  | cons c l ih =>
    simp only [List.cons_append, List.dropWhile_cons]
    split
    · exact ih
    · rfl

theorem splitSign_tail {t b : List Char} (ht : (splitSign t).2 ≠ []) :
    splitSign (t ++ b) = ((splitSign t).1, (splitSign t).2 ++ b) := by
  match t with
  | [] => exact absurd rfl ht
  | c :: t =>
    by_cases h1 : c = '-'
    · subst h1; rfl
    · by_cases h2 : c = '+'
      · subst h2; rfl
      · have : ∀ u, splitSign (c :: u) = (false, c :: u) := by
          intro u
          unfold splitSign
          split <;> simp_all
        rw [List.cons_append, this, this]
        rfl

theorem space_head {b : List Char} (hb : ∀ c ∈ b, isSpaceC c = true) : ∀ c ∈ b.head?, c.isDigit = false := by
  intro c hc
  have := hb c (List.mem_of_mem_head? hc)
  by_contra h
  rw [Bool.not_eq_false] at h
  rw [digit_not_space h] at this
  cases this

/-- Whole numbers that Python reads are read alike by the simulator. -/
theorem pyInt_atoi {s : List Char} {v : ℤ} (h : pyInt s = some v) : atoi s = v := by
  obtain ⟨b, hb, hs⟩ := strip_append isSpaceC s
  unfold pyInt at h
  simp only at h
  by_cases hc : (splitSign (pyStrip s)).2 ≠ [] ∧ (splitSign (pyStrip s)).2.all Char.isDigit = true
  swap
  · rw [if_neg hc] at h; cases h
  rw [if_pos hc, Option.some.injEq] at h
  unfold atoi
  simp only
  have hs' : s.dropWhile isSpaceC = pyStrip s ++ b := hs
  rw [hs', splitSign_tail hc.1]
  simp only
  rw [takeWhile_tail (space_head hb)]
  have : ((splitSign (pyStrip s)).2).takeWhile Char.isDigit = (splitSign (pyStrip s)).2 := by
    have := takeWhile_digits (l := (splitSign (pyStrip s)).2) (fun c hcc => List.all_eq_true.1 hc.2 c hcc) (m := []) (by simp)
    simpa using this
  rw [this]
  exact h

theorem splitFrac_tail {t b : List Char} (hb : ∀ c ∈ b, isSpaceC c = true) :
    splitFrac (t ++ b) = ((splitFrac t).1, (splitFrac t).2 ++ b) := by
  match t with
  | [] =>
    match b with
    | [] => rfl
    | c :: b =>
      have : c ≠ '.' := by
        rintro rfl
        have := hb '.' (by simp)
        revert this
        decide
      show splitFrac (c :: b) = ([], c :: b)
      unfold splitFrac
      split <;> simp_all
  | c :: t =>
    by_cases h1 : c = '.'
    · subst h1
      show ((t ++ b).takeWhile Char.isDigit, (t ++ b).dropWhile Char.isDigit)
        = (t.takeWhile Char.isDigit, t.dropWhile Char.isDigit ++ b)
      rw [takeWhile_tail (space_head hb), dropWhile_tail (space_head hb)]
    · have : ∀ u, splitFrac (c :: u) = ([], c :: u) := by
        intro u
        unfold splitFrac
        split <;> simp_all
      rw [List.cons_append, this, this]
      rfl

theorem exponent_tail {t b : List Char} (hb : ∀ c ∈ b, isSpaceC c = true) (ht : pyExponentOk t = true) :
    exponent (t ++ b) = exponent t := by
  match t with
  | [] =>
    match b with
    | [] => rfl
    | c :: b =>
      have : ¬(c = 'e' ∨ c = 'E') := by
        rintro (rfl | rfl)
        · have := hb 'e' (by simp); revert this; decide
        · have := hb 'E' (by simp); revert this; decide
      show exponent (c :: b) = 0
      simp only [exponent]
      rw [if_neg this]
  | c :: t =>
    unfold pyExponentOk at ht
    simp only [decide_eq_true_eq] at ht
    obtain ⟨h1, h2, h3⟩ := ht
    rw [List.cons_append]
    simp only [exponent]
    rw [if_pos h1, if_pos h1]
    rw [splitSign_tail h2]
    simp only
    rw [takeWhile_tail (space_head hb)]

/-- Decimal numbers that Python reads are read alike by the simulator. -/
theorem pyFloat_atof {s : List Char} {v : ℝ} (h : pyFloat s = some v) : atof s = v := by
  obtain ⟨b, hb, hs⟩ := strip_append isSpaceC s
  have hs' : s.dropWhile isSpaceC = pyStrip s ++ b := hs
  unfold pyFloat at h
  simp only at h
  obtain ⟨C, hC⟩ : ∃ C : Prop, C = (((splitSign (pyStrip s)).2.takeWhile Char.isDigit = [] ∧
    (splitFrac ((splitSign (pyStrip s)).2.dropWhile Char.isDigit)).1 = []) ∨
    pyExponentOk (splitFrac ((splitSign (pyStrip s)).2.dropWhile Char.isDigit)).2 = false) := ⟨_, rfl⟩
  by_cases hc : C
  · rw [hC] at hc
    rw [if_pos hc] at h; cases h
  rw [hC] at hc
  rw [if_neg hc, Option.some.injEq] at h
  rw [not_or, Bool.not_eq_false] at hc
  unfold atof
  simp only
  have hne : (splitSign (pyStrip s)).2 ≠ [] := by
    intro e
    apply hc.1
    rw [e]
    exact ⟨rfl, rfl⟩
  rw [hs', splitSign_tail hne]
  simp only
  rw [takeWhile_tail (space_head hb), dropWhile_tail (space_head hb), splitFrac_tail hb]
  simp only
  rw [if_neg hc.1, exponent_tail hb hc.2]
  exact h

theorem toLower_digit (c : Char) : c.toLower.isDigit = c.isDigit := by
  unfold Char.toLower
  split
  · next h =>
    have h1 : c.isDigit = false := by
      by_contra hd
      rw [Bool.not_eq_false] at hd
      simp only [Char.isDigit, Bool.and_eq_true, decide_eq_true_eq] at hd
      have := UInt32.le_iff_toNat_le.1 hd.2
      have := UInt32.le_iff_toNat_le.1 h.1
      simp at *
      omega
    rw [h1]
    by_contra hd
    rw [Bool.not_eq_false] at hd
    simp only [Char.isDigit, Bool.and_eq_true, decide_eq_true_eq] at hd
    have h2 := UInt32.le_iff_toNat_le.1 hd.2
    have h3 := UInt32.le_iff_toNat_le.1 h.1
    have h4 := UInt32.le_iff_toNat_le.1 h.2
    rw [UInt32.toNat_add] at h2
    simp at h2 h3 h4
    omega
  · rfl

theorem jsonSpace {c : Char} (h : isSpaceJson c = true) : isSpaceC c = true := by
  simp only [isSpaceJson, decide_eq_true_eq, List.mem_cons, List.not_mem_nil, or_false] at h
  rcases h with rfl | rfl | rfl | rfl <;> decide

theorem dropWhile_spaces {P : Char → Bool} {a u : List Char} (ha : ∀ c ∈ a, P c = true) :
    (a ++ u).dropWhile P = u.dropWhile P := by
  induction a with
  | nil => rfl
  | cons c a ih =>
    rw [List.cons_append, List.dropWhile_cons, if_pos (ha c (by simp))]
    exact ih fun x hx => ha x (by simp [hx])

theorem json_truth {s : List Char} {j : Json} (h : jsonLoads (s.map Char.toLower) = some j)
    (hd : ∀ c ∈ s, c.isDigit = false) : j.truth = toBool s := by
  obtain ⟨u, hu⟩ : ∃ u, u = s.map Char.toLower := ⟨_, rfl⟩
  rw [← hu] at h
  unfold toBool
  rw [← hu]
  obtain ⟨b, hb, hs⟩ := strip_append isSpaceJson u
  have h0 : u.dropWhile isSpaceC = (u.dropWhile isSpaceJson).dropWhile isSpaceC := by
    conv_lhs => rw [← List.takeWhile_append_dropWhile (p := isSpaceJson) (l := u)]
    exact dropWhile_spaces fun c hc => jsonSpace (List.mem_takeWhile_imp hc)
  rw [h0, hs]
  unfold jsonLoads at h
  simp only at h
  have hsub : ∀ c ∈ ((u.dropWhile isSpaceJson).reverse.dropWhile isSpaceJson).reverse, c.isDigit = false := by
    intro c hc
    rw [List.mem_reverse] at hc
    have hc2 := (List.dropWhile_sublist _).subset hc
    rw [List.mem_reverse] at hc2
    have hc3 := (List.dropWhile_sublist _).subset hc2
    rw [hu, List.mem_map] at hc3
    obtain ⟨c0, hc0, rfl⟩ := hc3
    rw [toLower_digit]
    exact hd c0 hc0
  generalize ((u.dropWhile isSpaceJson).reverse.dropWhile isSpaceJson).reverse = t at *
  by_cases h1 : t = ['t', 'r', 'u', 'e']
  · rw [if_pos h1] at h
    cases h
    subst h1
    rfl
  rw [if_neg h1] at h
  by_cases h2 : t = ['f', 'a', 'l', 's', 'e']
  · rw [if_pos h2] at h
    cases h
    subst h2
    rfl
  rw [if_neg h2] at h
  by_cases h3 : t = ['n', 'u', 'l', 'l']
  · rw [if_pos h3] at h
    cases h
    subst h3
    rfl
  rw [if_neg h3, Option.map_eq_some_iff] at h
  exfalso
  obtain ⟨n, hn, _⟩ := h
  unfold jsonInt at hn
  simp only at hn
  split at hn
  · next t' =>
    split_ifs at hn with hc
    all_goals
      obtain ⟨hc1, hc2, _⟩ := hc
      obtain ⟨x, l, hxl⟩ := List.exists_cons_of_ne_nil hc1
      have := List.all_eq_true.1 hc2 x (by rw [hxl]; simp)
      have h5 := hsub x (by simp only at hxl; rw [hxl]; simp)
      rw [h5] at this
      cases this
  · split_ifs at hn with hc
    all_goals
      obtain ⟨hc1, hc2, _⟩ := hc
      obtain ⟨x, l, hxl⟩ := List.exists_cons_of_ne_nil hc1
      have := List.all_eq_true.1 hc2 x (by rw [hxl]; simp)
      have h5 := hsub x (by simp only at hxl; rw [hxl]; simp)
      rw [h5] at this
      cases this

/-! ## Agreement -/

theorem obind_some {α β : Type} {x : Option α} {f : α → Option β} {b : β} (h : (x >>= f) = some b) :
    ∃ a, x = some a ∧ f a = some b := Option.bind_eq_some_iff.1 h

theorem pyText_of {e : Xml} {n : String} {t : List Char} (h : pyText e n = some t) (ho : OnlyChildren e n) :
    ∃ x, (e.named n).head? = some x ∧ x.text? = some t := by
  unfold pyText at h
  rw [byTag_only ho] at h
  exact Option.bind_eq_some_iff.1 h

theorem pyInt_agree {e : Xml} {n : String} {v w : ℤ} (h : (pyText e n).bind pyInt = some v) (ho : OnlyChildren e n)
    (hc : intChild e n = .ok w) : v = w := by
  obtain ⟨t, h1, h2⟩ := Option.bind_eq_some_iff.1 h
  obtain ⟨x, h3, h4⟩ := pyText_of h1 ho
  unfold intChild at hc
  obtain ⟨x', h5, hc⟩ := bind_ok hc
  obtain ⟨t', h6, hc⟩ := bind_ok hc
  have h7 := first_ok h5
  rw [h3, Option.some.injEq] at h7
  subst h7
  have h8 := text_ok h6
  rw [h4, Option.some.injEq] at h8
  subst h8
  unfold intText at hc
  split_ifs at hc
  cases hc
  exact (pyInt_atoi h2).symm

theorem pyUint_agree {e : Xml} {n : String} {v w : ℤ} (h : (pyText e n).bind pyInt = some v) (ho : OnlyChildren e n)
    (hc : uintChild e n = .ok w) : 0 ≤ v → v = w := by
  unfold uintChild at hc
  obtain ⟨a, h1, h2⟩ := bind_ok hc
  have h3 := pyInt_agree h ho h1
  cases h2
  intro hv
  subst h3
  have hb : v < 2 ^ 31 := by
    unfold intChild at h1
    obtain ⟨x', h5, hc⟩ := bind_ok h1
    obtain ⟨t', h6, hc⟩ := bind_ok hc
    unfold intText at hc
    split_ifs at hc with hr
    cases hc
    exact hr.2
  rw [u32_of_range hv (by omega)]

theorem pyFloat_agree {e : Xml} {n : String} {v w : ℝ} (h : (pyText e n).bind pyFloat = some v) (ho : OnlyChildren e n)
    (hc : realChild e n = .ok w) : v = w := by
  obtain ⟨t, h1, h2⟩ := Option.bind_eq_some_iff.1 h
  obtain ⟨x, h3, h4⟩ := pyText_of h1 ho
  unfold realChild at hc
  obtain ⟨x', h5, hc⟩ := bind_ok hc
  obtain ⟨t', h6, hc⟩ := bind_ok hc
  have h7 := first_ok h5
  rw [h3, Option.some.injEq] at h7
  subst h7
  have h8 := text_ok h6
  rw [h4, Option.some.injEq] at h8
  subst h8
  cases hc
  exact (pyFloat_atof h2).symm

theorem pyAttr_agree {e : Xml} {a : String} {t : List Char} (h : tryAttribute e a = .ok t) : pyAttr e a = t := by
  unfold pyAttr
  rw [attr_ok h]
  rfl

theorem pyIntAttr_agree {e : Xml} {a : String} {v w : ℤ} (h : pyInt (pyAttr e a) = some v) (hc : intAttr e a = .ok w) :
    v = w := by
  unfold intAttr at hc
  obtain ⟨t, h1, h2⟩ := bind_ok hc
  rw [pyAttr_agree h1] at h
  unfold intText at h2
  split_ifs at h2
  cases h2
  exact (pyInt_atoi h).symm

theorem mapM_load {α β : Type} {f : α → Load β} : ∀ {l : List α} {r : List β}, l.mapM f = .ok r →
    List.Forall₂ (fun x y => f x = .ok y) l r := by
  intro l
  induction l with
  | nil => intro r h; cases h; exact .nil
  | cons x l ih =>
    intro r h
    rw [List.mapM_cons] at h
    obtain ⟨y, h1, h⟩ := bind_ok h
    obtain ⟨ys, h2, h⟩ := bind_ok h
    cases h
    exact .cons h1 (ih h2)

theorem mapM_opt {α β : Type} {f : α → Option β} : ∀ {l : List α} {r : List β}, l.mapM f = some r →
    List.Forall₂ (fun x y => f x = some y) l r := by
  intro l
  induction l with
  | nil => intro r h; cases h; exact .nil
  | cons x l ih =>
    intro r h
    rw [List.mapM_cons] at h
    obtain ⟨y, h1, h⟩ := obind_some h
    obtain ⟨ys, h2, h⟩ := obind_some h
    cases h
    exact .cons h1 (ih h2)

theorem forall₂_join {α β γ : Type} {R : α → β → Prop} {S : α → γ → Prop} {T : β → γ → Prop} :
    ∀ {l : List α} {a : List β} {b : List γ}, List.Forall₂ R l a → List.Forall₂ S l b →
      (∀ x ∈ l, ∀ y z, R x y → S x z → T y z) → List.Forall₂ T a b := by
  intro l a b h1
  induction h1 generalizing b with
  | nil => intro h2 _; cases h2; exact .nil
  | cons hx _ ih =>
    intro h2 hT
    cases h2 with
    | cons hz h2 => exact .cons (hT _ (by simp) _ _ hx hz) (ih h2 fun x hx => hT x (by simp [hx]))

theorem probe_agree {g : GeomCfg} {e : Xml} {a : ProbeDecl} {b : PyProbe} (h1 : loadProbe g e = .ok a)
    (h2 : pyProbe e = some b) : SameProbe a b := by
  unfold loadProbe at h1
  obtain ⟨comp, hcomp, h1⟩ := bind_ok h1
  obtain ⟨type, htype, h1⟩ := bind_ok h1
  unfold pyProbe at h2
  simp only at h2
  obtain ⟨sch, hsch, h2⟩ := obind_some h2
  rw [pyAttr_agree htype, pyAttr_agree hcomp] at h2
  have hspec : pyAttr e "specie" = (e.attr? "specie").getD noneText ∨
      (pyAttr e "specie" = [] ∧ (e.attr? "specie").getD noneText = noneText) := by
    unfold pyAttr
    cases e.attr? "specie" with
    | none => exact .inr ⟨rfl, rfl⟩
    | some t => exact .inl rfl
  by_cases t1 : type = "frame".toList
  · rw [if_pos t1] at h1
    rw [if_pos (.inl t1)] at h2
    obtain ⟨_, a1, h1⟩ := bind_ok h1
    obtain ⟨_, a2, h1⟩ := bind_ok h1
    obtain ⟨_, a3, h1⟩ := bind_ok h1
    obtain ⟨_, a4, h1⟩ := bind_ok h1
    obtain ⟨_, a5, h1⟩ := bind_ok h1
    cases h1
    obtain ⟨_, b1, h2⟩ := obind_some h2
    obtain ⟨_, b2, h2⟩ := obind_some h2
    obtain ⟨_, b3, h2⟩ := obind_some h2
    obtain ⟨_, b4, h2⟩ := obind_some h2
    cases h2
    exact ⟨t1, rfl, pyIntAttr_agree hsch a5, hspec, fun _ => pyIntAttr_agree b1 a1, fun _ => pyIntAttr_agree b3 a3,
      fun _ => ⟨pyIntAttr_agree b2 a2, pyIntAttr_agree b4 a4⟩⟩
  rw [if_neg t1] at h1
  by_cases t2 : type = "col".toList
  · rw [if_pos t2] at h1
    rw [if_neg (by rw [t2]; decide), if_pos t2] at h2
    obtain ⟨_, a1, h1⟩ := bind_ok h1
    obtain ⟨_, a5, h1⟩ := bind_ok h1
    cases h1
    obtain ⟨_, b1, h2⟩ := obind_some h2
    cases h2
    exact ⟨t2, rfl, pyIntAttr_agree hsch a5, hspec, fun h => absurd rfl h, fun _ => pyIntAttr_agree b1 a1,
      fun h => by rcases h with h | h <;> cases h⟩
  rw [if_neg t2] at h1
  by_cases t3 : type = "row".toList
  · rw [if_pos t3] at h1
    rw [if_neg (by rw [t3]; decide), if_neg t2, if_pos t3] at h2
    obtain ⟨_, a1, h1⟩ := bind_ok h1
    obtain ⟨_, a5, h1⟩ := bind_ok h1
    cases h1
    obtain ⟨_, b1, h2⟩ := obind_some h2
    cases h2
    exact ⟨t3, rfl, pyIntAttr_agree hsch a5, hspec, fun _ => pyIntAttr_agree b1 a1, fun h => absurd rfl h,
      fun h => by rcases h with h | h <;> cases h⟩
  rw [if_neg t3] at h1
  by_cases t4 : type = "dot".toList
  · rw [if_pos t4] at h1
    rw [if_neg (by rw [t4]; decide), if_neg t2, if_neg t3, if_pos t4] at h2
    obtain ⟨_, a1, h1⟩ := bind_ok h1
    obtain ⟨_, a2, h1⟩ := bind_ok h1
    obtain ⟨_, a5, h1⟩ := bind_ok h1
    cases h1
    obtain ⟨_, b1, h2⟩ := obind_some h2
    obtain ⟨_, b2, h2⟩ := obind_some h2
    cases h2
    exact ⟨t4, rfl, pyIntAttr_agree hsch a5, hspec, fun _ => pyIntAttr_agree b1 a1, fun _ => pyIntAttr_agree b2 a2,
      fun h => by rcases h with h | h <;> cases h⟩
  rw [if_neg t4] at h1
  by_cases t5 : type = "mpframe".toList
  · rw [if_pos t5] at h1
    rw [if_pos (.inr t5)] at h2
    obtain ⟨_, a1, h1⟩ := bind_ok h1
    obtain ⟨_, a2, h1⟩ := bind_ok h1
    obtain ⟨_, a3, h1⟩ := bind_ok h1
    obtain ⟨_, a4, h1⟩ := bind_ok h1
    obtain ⟨_, a5, h1⟩ := bind_ok h1
    cases h1
    obtain ⟨_, b1, h2⟩ := obind_some h2
    obtain ⟨_, b2, h2⟩ := obind_some h2
    obtain ⟨_, b3, h2⟩ := obind_some h2
    obtain ⟨_, b4, h2⟩ := obind_some h2
    cases h2
    exact ⟨t5, rfl, pyIntAttr_agree hsch a5, hspec, fun _ => pyIntAttr_agree b1 a1, fun _ => pyIntAttr_agree b3 a3,
      fun _ => ⟨pyIntAttr_agree b2 a2, pyIntAttr_agree b4 a4⟩⟩
  rw [if_neg t5] at h1
  cases h1

theorem specie_agree {debug : Bool} {e : Xml} {a : SpecieSettings} {b : PySpecie}
    (ho : ∀ n ∈ ["charge", "mass", "number_macro", "left_density", "right_density", "temperature"], OnlyChildren e n)
    (h1 : loadSpecie debug e = .ok a) (h2 : pySpecie e = some b) : SameSpecie debug a b := by
  unfold loadSpecie at h1
  obtain ⟨_, a1, h1⟩ := bind_ok h1
  obtain ⟨_, a2, h1⟩ := bind_ok h1
  obtain ⟨_, a3, h1⟩ := bind_ok h1
  obtain ⟨_, a4, h1⟩ := bind_ok h1
  obtain ⟨_, a5, h1⟩ := bind_ok h1
  obtain ⟨_, a6, h1⟩ := bind_ok h1
  obtain ⟨_, a7, h1⟩ := bind_ok h1
  cases h1
  unfold pySpecie at h2
  obtain ⟨_, b2, h2⟩ := obind_some h2
  obtain ⟨_, b3, h2⟩ := obind_some h2
  obtain ⟨_, b7, h2⟩ := obind_some h2
  obtain ⟨_, b4, h2⟩ := obind_some h2
  obtain ⟨_, b5, h2⟩ := obind_some h2
  obtain ⟨_, b6, h2⟩ := obind_some h2
  cases h2
  refine ⟨pyAttr_agree a1, pyInt_agree b2 (ho _ (by simp)) a2, pyUint_agree b3 (ho _ (by simp)) a3, ?_,
    pyFloat_agree b5 (ho _ (by simp)) a5, pyFloat_agree b6 (ho _ (by simp)) a6, pyFloat_agree b7 (ho _ (by simp)) a7⟩
  rintro rfl
  exact pyFloat_agree b4 (ho _ (by simp)) a4

theorem section_same {root x y : Xml} {n : String} (hD : OnlyChildren root n) (hn : root.name ≠ n)
    (h1 : tryFirstChild root n = .ok x) (h2 : (docByTag root n).head? = some y) : y = x ∧ x ∈ root.named n := by
  rw [docByTag_only hD hn, first_ok h1, Option.some.injEq] at h2
  exact ⟨h2.symm, List.mem_of_mem_head? (first_ok h1)⟩

/-- **C71 (partial)** If the simulator accepts a configuration file and the tools read it, both have the same grid,
sizes, probes, output directory name, numbers of records in a file, beam, species and times.  Not covered: the number of
macroparticles in debug mode, the number of bunches (`C71_macros_violated`, `C71_bunches_violated`), settings of the same
name deeper inside, and a mode given as a number (`C71_mode_violated`). -/
theorem C71_agree_partial (file : List Char) (root : Xml) (hD : Documented root) (c : Config) (p : PyParams)
    (hc : loadConfig (some root) = .ok c) (hp : pyParams file root = some p) : SameSettings file c p := by
  unfold loadConfig at hc
  simp only at hc
  split_ifs at hc with h0
  rw [not_not] at h0
  obtain ⟨debug, hdebug, hc⟩ := bind_ok hc
  obtain ⟨hdf5, _, hc⟩ := bind_ok hc
  obtain ⟨g, hg, hc⟩ := bind_ok hc
  obtain ⟨pml, _, hc⟩ := bind_ok hc
  obtain ⟨time, htime, hc⟩ := bind_ok hc
  obtain ⟨species, hspecies, hc⟩ := bind_ok hc
  obtain ⟨beam, hbeam, hc⟩ := bind_ok hc
  obtain ⟨dump, hdump, hc⟩ := bind_ok hc
  obtain ⟨probes, hprobes, hc⟩ := bind_ok hc
  cases hc
  unfold loadGeometry at hg
  obtain ⟨eg, hg0, hg⟩ := bind_ok hg
  obtain ⟨_, hg1, hg⟩ := bind_ok hg
  obtain ⟨_, hg2, hg⟩ := bind_ok hg
  obtain ⟨_, hg3, hg⟩ := bind_ok hg
  obtain ⟨_, hg4, hg⟩ := bind_ok hg
  cases hg
  unfold loadTime at htime
  obtain ⟨et, ht0, htime⟩ := bind_ok htime
  obtain ⟨_, ht1, htime⟩ := bind_ok htime
  obtain ⟨_, ht2, htime⟩ := bind_ok htime
  obtain ⟨_, ht3, htime⟩ := bind_ok htime
  obtain ⟨_, ht4, htime⟩ := bind_ok htime
  obtain ⟨_, ht5, htime⟩ := bind_ok htime
  cases htime
  unfold loadParticles at hspecies
  obtain ⟨es, hs0, hspecies⟩ := bind_ok hspecies
  obtain ⟨_, _, hspecies⟩ := bind_ok hspecies
  unfold loadBeam at hbeam
  obtain ⟨eb, hb0, hbeam⟩ := bind_ok hbeam
  obtain ⟨_, hb1, hbeam⟩ := bind_ok hbeam
  obtain ⟨_, hb2, hbeam⟩ := bind_ok hbeam
  obtain ⟨_, hb3, hbeam⟩ := bind_ok hbeam
  obtain ⟨_, hb4, hbeam⟩ := bind_ok hbeam
  obtain ⟨_, hb5, hbeam⟩ := bind_ok hbeam
  obtain ⟨_, hb6, hbeam⟩ := bind_ok hbeam
  obtain ⟨_, _, hbeam⟩ := bind_ok hbeam
  obtain ⟨_, hb7, hbeam⟩ := bind_ok hbeam
  obtain ⟨_, hb8, hbeam⟩ := bind_ok hbeam
  obtain ⟨_, hb9, hbeam⟩ := bind_ok hbeam
  cases hbeam
  unfold loadDump at hdump
  obtain ⟨ed, hd0, hdump⟩ := bind_ok hdump
  obtain ⟨xp, hd1, hdump⟩ := bind_ok hdump
  obtain ⟨xr, hd2, hdump⟩ := bind_ok hdump
  obtain ⟨_, hd3, hdump⟩ := bind_ok hdump
  obtain ⟨_, hd4, hdump⟩ := bind_ok hdump
  obtain ⟨_, hd5, hdump⟩ := bind_ok hdump
  cases hdump
  unfold loadProbes at hprobes
  obtain ⟨ed', hd0', hprobes⟩ := bind_ok hprobes
  have : ed' = ed := by
    rw [hd0] at hd0'
    cases hd0'
    rfl
  subst this
  obtain ⟨ep, hp0, hprobes⟩ := bind_ok hprobes
  obtain ⟨_, _, hprobes⟩ := bind_ok hprobes
  -- the tools
  unfold pyParams at hp
  obtain ⟨pdebug, hpd, hp⟩ := obind_some hp
  obtain ⟨phdf5, _, hp⟩ := obind_some hp
  obtain ⟨pg, qg, hp⟩ := obind_some hp
  obtain ⟨_, qnr, hp⟩ := obind_some hp
  obtain ⟨_, qnz, hp⟩ := obind_some hp
  obtain ⟨_, qr, hp⟩ := obind_some hp
  obtain ⟨_, qz, hp⟩ := obind_some hp
  obtain ⟨ps, qs, hp⟩ := obind_some hp
  obtain ⟨pe, qe, hp⟩ := obind_some hp
  obtain ⟨pprobes, qprobes, hp⟩ := obind_some hp
  obtain ⟨_, qroot, hp⟩ := obind_some hp
  obtain ⟨_, qpath, hp⟩ := obind_some hp
  obtain ⟨_, qfpf, hp⟩ := obind_some hp
  obtain ⟨pb, qb, hp⟩ := obind_some hp
  obtain ⟨_, q1, hp⟩ := obind_some hp
  obtain ⟨_, q2, hp⟩ := obind_some hp
  obtain ⟨_, q3, hp⟩ := obind_some hp
  obtain ⟨_, _, hp⟩ := obind_some hp
  obtain ⟨_, q5, hp⟩ := obind_some hp
  obtain ⟨_, q6, hp⟩ := obind_some hp
  obtain ⟨pp, qp, hp⟩ := obind_some hp
  obtain ⟨pspecies, qspecies, hp⟩ := obind_some hp
  obtain ⟨pt, qt, hp⟩ := obind_some hp
  obtain ⟨_, q7, hp⟩ := obind_some hp
  obtain ⟨_, q8, hp⟩ := obind_some hp
  obtain ⟨_, q9, hp⟩ := obind_some hp
  obtain ⟨_, _, hp⟩ := obind_some hp
  cases hp
  -- the mode
  have hmode : pdebug.truth = debug := by
    unfold boolChild at hdebug
    obtain ⟨x, h1, hdebug⟩ := bind_ok hdebug
    obtain ⟨t, h2, hdebug⟩ := bind_ok hdebug
    cases hdebug
    obtain ⟨t', h3, h4⟩ := Option.bind_eq_some_iff.1 hpd
    obtain ⟨x', h5, h6⟩ := Option.bind_eq_some_iff.1 h3
    obtain ⟨rfl, hx⟩ := section_same (hD.top _ (by simp)) (by rw [h0]; decide) h1 h5
    rw [text_ok h2, Option.some.injEq] at h6
    subst h6
    exact json_truth h4 (hD.mode _ hx _ (text_ok h2))
  subst hmode
  obtain ⟨rfl, mg⟩ := section_same (hD.top _ (by simp)) (by rw [h0]; decide) hg0 qg
  obtain ⟨rfl, ms⟩ := section_same (hD.top _ (by simp)) (by rw [h0]; decide) hd0 qs
  obtain ⟨rfl, mb⟩ := section_same (hD.top _ (by simp)) (by rw [h0]; decide) hb0 qb
  obtain ⟨rfl, mp⟩ := section_same (hD.top _ (by simp)) (by rw [h0]; decide) hs0 qp
  obtain ⟨rfl, mt⟩ := section_same (hD.top _ (by simp)) (by rw [h0]; decide) ht0 qt
  have inn : ∀ (sec n : String) (s : Xml), (sec, n) ∈ required pdebug.truth → s ∈ root.named sec → OnlyChildren s n :=
    fun sec n s h1 h2 => hD.inner _ _ h1 s h2
  have hpe : pe = ep ∧ ep ∈ ps.named "probes" := by
    rw [byTag_only (hD.output _ (by simp) _ ms), first_ok hp0, Option.some.injEq] at qe
    exact ⟨qe.symm, List.mem_of_mem_head? (first_ok hp0)⟩
  obtain ⟨rfl, mpe⟩ := hpe
  refine ⟨?_, ?_, ?_, ?_, ?_, ?_, ?_, ?_, ?_, ?_, ?_, ?_, ?_, ?_, ?_, ?_, ?_⟩
  · exact pyInt_agree qnr (inn "geometry" _ _ (by simp [required]) mg) hg3
  · exact pyInt_agree qnz (inn "geometry" _ _ (by simp [required]) mg) hg4
  · exact pyFloat_agree qr (inn "geometry" _ _ (by simp [required]) mg) hg1
  · exact pyFloat_agree qz (inn "geometry" _ _ (by simp [required]) mg) hg2
  · rw [byTag_only (hD.probe _ ms _ mpe)] at qprobes
    exact forall₂_join (mapM_load hprobes) (mapM_opt qprobes) fun x _ y z hy hz => probe_agree hy hz
  · obtain ⟨x, h1, h2⟩ := pyText_of qroot (hD.output _ (by cases pdebug.truth <;> simp) _ ms)
    have := first_ok hd2
    rw [h1, Option.some.injEq] at this
    subst this
    exact h2
  · obtain ⟨x, h1, h2⟩ := pyText_of qpath (hD.output _ (by simp) _ ms)
    have := first_ok hd1
    rw [h1, Option.some.injEq] at this
    subst this
    exact ⟨_, h2, rfl⟩
  · exact pyUint_agree qfpf (inn "file_save_parameters" _ _ (by simp [required]) ms) hd3
  · exact pyFloat_agree q1 (inn "particle_beam" _ _ (by simp [required]) mb) hb9
  · exact pyFloat_agree q2 (inn "particle_beam" _ _ (by simp [required]) mb) hb8
  · exact pyFloat_agree q3 (inn "particle_beam" _ _ (by simp [required]) mb) hb7
  · exact pyFloat_agree q5 (inn "particle_beam" _ _ (by simp [required]) mb) hb4
  · exact pyFloat_agree q6 (inn "particle_beam" _ _ (by simp [required]) mb) hb5
  · rw [byTag_only (hD.specie _ mp)] at qspecies
    exact forall₂_join (mapM_load hspecies) (mapM_opt qspecies) fun x hx y z hy hz =>
      specie_agree (hD.inSpecie _ mp x hx) hy hz
  · exact pyFloat_agree q7 (inn "time" _ _ (by simp [required]) mt) ht1
  · exact pyFloat_agree q8 (inn "time" _ _ (by simp [required]) mt) ht4
  · exact pyFloat_agree q9 (inn "time" _ _ (by simp [required]) mt) ht5

end Verif
