import Verif.ConfigSame
import Verif.OutputProps
import Verif.PyParams

/-!
# Faulty configurations (C70)
-/

namespace Verif

/-! ## Specification -/

/-- `x` is the element `e` or stands inside it -/
inductive Xml.Sub : Xml → Xml → Prop
  | refl (e : Xml) : Xml.Sub e e
  | child {e y x : Xml} (hy : y ∈ e.children) (h : Xml.Sub y x) : Xml.Sub e x

/-- Settings with a number or a truth value -/
def valueNames : List String :=
  ["debug", "use_hdf5", "r_size", "z_size", "n_grid_r", "n_grid_z", "debug_n_grid_r", "debug_n_grid_z", "comparative_l_1",
   "comparative_l_2", "comparative_l_3", "sigma_1", "sigma_2", "start_time", "relaxation_time", "current_time", "end_time",
   "step_interval", "charge", "mass", "number_macro", "debug_number_macro", "left_density", "right_density", "temperature",
   "initial_velocity", "number_bunches", "bunches_distance", "bunch_number_macro", "debug_bunch_number_macro",
   "bunch_length", "bunch_radius", "bunch_density", "frames_per_file", "compress", "compress_level"]

/-- No setting is empty, whole numbers fit an `int`, and the number of particles of a bunch an `unsigned int` -/
structure Benign (root : Xml) : Prop where
  name : root.name = "initial_parameters"
  value : ∀ x, Xml.Sub root x → x.name ∈ valueNames → x.text? ≠ none
  small : ∀ x t, Xml.Sub root x → x.text? = some t → Int32 (atoi t)
  smallAttr : ∀ x a t, Xml.Sub root x → x.attr? a = some t → Int32 (atoi t)
  macros : ∀ x t, Xml.Sub root x → (x.name = "bunch_number_macro" ∨ x.name = "debug_bunch_number_macro") →
    x.text? = some t → -1 < atof t ∧ atof t < 2 ^ 32

/-- Section and setting (the settings of species and probes apart) -/
def required (debug : Bool) : List (String × String) :=
  [("geometry", "r_size"), ("geometry", "z_size"), ("pml", "comparative_l_1"), ("pml", "comparative_l_2"),
   ("pml", "comparative_l_3"), ("pml", "sigma_1"), ("pml", "sigma_2"), ("time", "start_time"), ("time", "relaxation_time"),
   ("time", "current_time"), ("time", "end_time"), ("time", "step_interval"), ("particle_beam", "charge"),
   ("particle_beam", "mass"), ("particle_beam", "number_bunches"), ("particle_beam", "bunches_distance"),
   ("particle_beam", "initial_velocity"), ("particle_beam", "bunch_length"), ("particle_beam", "bunch_radius"),
   ("particle_beam", "bunch_density"), ("file_save_parameters", "frames_per_file"), ("file_save_parameters", "compress"),
   ("file_save_parameters", "compress_level"),
   ("geometry", if debug then "debug_n_grid_r" else "n_grid_r"), ("geometry", if debug then "debug_n_grid_z" else "n_grid_z"),
   ("particle_beam", if debug then "debug_bunch_number_macro" else "bunch_number_macro")]

/-- The setting is there, in the first section of this name, and is not empty. -/
def Given (root : Xml) (p : String × String) : Prop :=
  ∃ s, (root.named p.1).head? = some s ∧ ∃ x, (s.named p.2).head? = some x ∧ x.text? ≠ none

/-! ## Proofs -/

theorem bind_ok {α β : Type} {x : Load α} {f : α → Load β} {b : β} (h : (x >>= f) = .ok b) :
    ∃ a, x = .ok a ∧ f a = .ok b := by
  cases x with
  | error e => cases h
  | ok a => exact ⟨a, rfl, h⟩

theorem first_ok {e x : Xml} {n : String} (h : tryFirstChild e n = .ok x) : (e.named n).head? = some x := by
  unfold tryFirstChild at h
  cases hn : e.named n with
  | nil => rw [hn] at h; cases h
  | cons a l => rw [hn] at h; cases h; rfl

theorem text_ok {x : Xml} {t : List Char} (h : textOf x = .ok t) : x.text? = some t := by
  unfold textOf at h
  cases hn : x.text? with
  | none => rw [hn] at h; cases h
  | some a => rw [hn] at h; cases h; rfl

theorem value_given {β : Type} {e : Xml} {n : String} {f : List Char → Load β} {b : β}
    (h : (tryFirstChild e n >>= fun x => textOf x >>= f) = .ok b) :
    ∃ x, (e.named n).head? = some x ∧ x.text? ≠ none := by
  obtain ⟨x, h1, h2⟩ := bind_ok h
  obtain ⟨t, h3, _⟩ := bind_ok h2
  exact ⟨x, first_ok h1, by rw [text_ok h3]; simp⟩

theorem int_given {e : Xml} {n : String} {b : ℤ} (h : intChild e n = .ok b) :
    ∃ x, (e.named n).head? = some x ∧ x.text? ≠ none := value_given h

theorem uint_given {e : Xml} {n : String} {b : ℤ} (h : uintChild e n = .ok b) :
    ∃ x, (e.named n).head? = some x ∧ x.text? ≠ none := by
  unfold uintChild at h
  obtain ⟨a, h1, _⟩ := bind_ok h
  exact int_given h1

theorem real_given {e : Xml} {n : String} {b : ℝ} (h : realChild e n = .ok b) :
    ∃ x, (e.named n).head? = some x ∧ x.text? ≠ none := value_given h

theorem bool_given {e : Xml} {n : String} {b : Bool} (h : boolChild e n = .ok b) :
    ∃ x, (e.named n).head? = some x ∧ x.text? ≠ none := value_given h

/-- **C70** A run never starts with a setting missing: when the configuration is read, every required setting of the
chosen mode is there, with a text. -/
theorem C70_missing_reported (root : Xml) (c : Config) (h : loadConfig (some root) = .ok c) :
    ∀ p ∈ required c.debug, Given root p := by
  unfold loadConfig at h
  simp only at h
  split_ifs at h with h0
  obtain ⟨debug, _, h⟩ := bind_ok h
  obtain ⟨hdf5, _, h⟩ := bind_ok h
  obtain ⟨g, hg, h⟩ := bind_ok h
  obtain ⟨pml, hpml, h⟩ := bind_ok h
  obtain ⟨time, htime, h⟩ := bind_ok h
  obtain ⟨species, _, h⟩ := bind_ok h
  obtain ⟨beam, hbeam, h⟩ := bind_ok h
  obtain ⟨dump, hdump, h⟩ := bind_ok h
  obtain ⟨probes, _, h⟩ := bind_ok h
  cases h
  simp only
  unfold loadGeometry at hg
  obtain ⟨eg, hg0, hg⟩ := bind_ok hg
  obtain ⟨_, hg1, hg⟩ := bind_ok hg
  obtain ⟨_, hg2, hg⟩ := bind_ok hg
  obtain ⟨_, hg3, hg⟩ := bind_ok hg
  obtain ⟨_, hg4, hg⟩ := bind_ok hg
  unfold loadPml at hpml
  obtain ⟨ep, hp0, hpml⟩ := bind_ok hpml
  obtain ⟨_, hp1, hpml⟩ := bind_ok hpml
  obtain ⟨_, hp2, hpml⟩ := bind_ok hpml
  obtain ⟨_, hp3, hpml⟩ := bind_ok hpml
  obtain ⟨_, hp4, hpml⟩ := bind_ok hpml
  obtain ⟨_, hp5, hpml⟩ := bind_ok hpml
  unfold loadTime at htime
  obtain ⟨et, ht0, htime⟩ := bind_ok htime
  obtain ⟨_, ht1, htime⟩ := bind_ok htime
  obtain ⟨_, ht2, htime⟩ := bind_ok htime
  obtain ⟨_, ht3, htime⟩ := bind_ok htime
  obtain ⟨_, ht4, htime⟩ := bind_ok htime
  obtain ⟨_, ht5, htime⟩ := bind_ok htime
  unfold loadBeam at hbeam
  obtain ⟨eb, hb0, hbeam⟩ := bind_ok hbeam
  obtain ⟨_, hb1, hbeam⟩ := bind_ok hbeam
  obtain ⟨_, hb2, hbeam⟩ := bind_ok hbeam
  obtain ⟨_, hb3, hbeam⟩ := bind_ok hbeam
  obtain ⟨_, hb4, hbeam⟩ := bind_ok hbeam
  obtain ⟨_, hb5, hbeam⟩ := bind_ok hbeam
  obtain ⟨_, hb6, hbeam⟩ := bind_ok hbeam
  obtain ⟨_, _, hbeam⟩ := bind_ok hbeam
  obtain ⟨_, hb7, hbeam⟩ := bind_ok hbeam
  obtain ⟨_, hb8, hbeam⟩ := bind_ok hbeam
  obtain ⟨_, hb9, hbeam⟩ := bind_ok hbeam
  unfold loadDump at hdump
  obtain ⟨ed, hd0, hdump⟩ := bind_ok hdump
  obtain ⟨_, _, hdump⟩ := bind_ok hdump
  obtain ⟨_, _, hdump⟩ := bind_ok hdump
  obtain ⟨_, hd1, hdump⟩ := bind_ok hdump
  obtain ⟨_, hd2, hdump⟩ := bind_ok hdump
  obtain ⟨_, hd3, hdump⟩ := bind_ok hdump
  simp only [required, List.mem_cons, List.not_mem_nil, or_false, forall_eq_or_imp, forall_eq]
  exact ⟨⟨_, first_ok hg0, real_given hg1⟩, ⟨_, first_ok hg0, real_given hg2⟩, ⟨_, first_ok hp0, real_given hp1⟩,
    ⟨_, first_ok hp0, real_given hp2⟩, ⟨_, first_ok hp0, real_given hp3⟩, ⟨_, first_ok hp0, real_given hp4⟩,
    ⟨_, first_ok hp0, real_given hp5⟩, ⟨_, first_ok ht0, real_given ht1⟩, ⟨_, first_ok ht0, real_given ht2⟩,
    ⟨_, first_ok ht0, real_given ht3⟩, ⟨_, first_ok ht0, real_given ht4⟩, ⟨_, first_ok ht0, real_given ht5⟩,
    ⟨_, first_ok hb0, int_given hb1⟩, ⟨_, first_ok hb0, uint_given hb2⟩, ⟨_, first_ok hb0, uint_given hb3⟩,
    ⟨_, first_ok hb0, real_given hb4⟩, ⟨_, first_ok hb0, real_given hb5⟩, ⟨_, first_ok hb0, real_given hb7⟩,
    ⟨_, first_ok hb0, real_given hb8⟩, ⟨_, first_ok hb0, real_given hb9⟩, ⟨_, first_ok hd0, uint_given hd1⟩,
    ⟨_, first_ok hd0, bool_given hd2⟩, ⟨_, first_ok hd0, int_given hd3⟩, ⟨_, first_ok hg0, int_given hg3⟩,
    ⟨_, first_ok hg0, int_given hg4⟩, ⟨_, first_ok hb0, real_given hb6⟩⟩

/-! ### No undefined behaviour -/

def NoUb {α : Type} (x : Load α) : Prop := x ≠ .error .ub

theorem NoUb.bind {α β : Type} {x : Load α} {f : α → Load β} (hx : NoUb x) (hf : ∀ a, x = .ok a → NoUb (f a)) :
    NoUb (x >>= f) := by
  cases x with
  | error e => intro h; apply hx; cases h; rfl
  | ok a => exact hf a rfl

theorem noUb_ok {α : Type} (a : α) : NoUb (Except.ok a : Load α) := by intro h; cases h

theorem Xml.Sub.trans_child {r e x : Xml} (h : Xml.Sub r e) (hx : x ∈ e.children) : Xml.Sub r x := by
  induction h with
  | refl e => exact .child hx (.refl x)
  | child hy _ ih => exact .child hy (ih hx)

theorem first_noUb (e : Xml) (n : String) : NoUb (tryFirstChild e n) := by
  unfold tryFirstChild
  split
  · intro h; cases h
  · exact noUb_ok _

theorem first_sub {r e x : Xml} {n : String} (h : tryFirstChild e n = .ok x) (hr : Xml.Sub r e) : Xml.Sub r x ∧ x.name = n := by
  have h1 := first_ok h
  have h2 : x ∈ e.named n := List.mem_of_mem_head? h1
  unfold Xml.named at h2
  rw [List.mem_filter] at h2
  exact ⟨hr.trans_child h2.1, by simpa using h2.2⟩

theorem attr_noUb (e : Xml) (a : String) : NoUb (tryAttribute e a) := by
  unfold tryAttribute
  split
  · intro h; cases h
  · exact noUb_ok _

theorem attr_ok {e : Xml} {a : String} {t : List Char} (h : tryAttribute e a = .ok t) : e.attr? a = some t := by
  unfold tryAttribute at h
  cases hn : e.attr? a with
  | none => rw [hn] at h; cases h
  | some b => rw [hn] at h; cases h; rfl

variable {root e : Xml}

theorem intText_noUb {t : List Char} (h : Int32 (atoi t)) : NoUb (intText t) := by
  have : intText t = .ok (atoi t) := if_pos h
  rw [this]
  exact noUb_ok _

theorem text_noUb (hB : Benign root) (he : Xml.Sub root e) (hn : e.name ∈ valueNames) : NoUb (textOf e) := by
  have := hB.value e he hn
  unfold textOf
  cases ht : e.text? with
  | none => exact absurd ht this
  | some t => exact noUb_ok _

theorem value_noUb {β : Type} (hB : Benign root) (he : Xml.Sub root e) {n : String} (hn : n ∈ valueNames) {f : List Char → Load β}
    (hf : ∀ x t, Xml.Sub root x → x.name = n → x.text? = some t → NoUb (f t)) :
    NoUb (tryFirstChild e n >>= fun x => textOf x >>= f) := by
  refine (first_noUb e n).bind fun x hx => ?_
  obtain ⟨h1, h2⟩ := first_sub hx he
  refine (text_noUb hB h1 (h2 ▸ hn)).bind fun t ht => ?_
  exact hf x t h1 h2 (text_ok ht)

theorem int_noUb (hB : Benign root) (he : Xml.Sub root e) {n : String} (hn : n ∈ valueNames) : NoUb (intChild e n) :=
  value_noUb hB he hn fun x t h1 _ h3 => intText_noUb (hB.small x t h1 h3)

theorem uint_noUb (hB : Benign root) (he : Xml.Sub root e) {n : String} (hn : n ∈ valueNames) : NoUb (uintChild e n) :=
  (int_noUb hB he hn).bind fun _ _ => noUb_ok _

theorem real_noUb (hB : Benign root) (he : Xml.Sub root e) {n : String} (hn : n ∈ valueNames) : NoUb (realChild e n) :=
  value_noUb hB he hn fun _ _ _ _ _ => noUb_ok _

theorem bool_noUb (hB : Benign root) (he : Xml.Sub root e) {n : String} (hn : n ∈ valueNames) : NoUb (boolChild e n) :=
  value_noUb hB he hn fun _ _ _ _ _ => noUb_ok _

theorem intAttr_noUb (hB : Benign root) (he : Xml.Sub root e) (a : String) : NoUb (intAttr e a) :=
  (attr_noUb e a).bind fun t ht => intText_noUb (hB.smallAttr e a t he (attr_ok ht))

theorem mapM_noUb {α β : Type} {f : α → Load β} : ∀ {l : List α}, (∀ x ∈ l, NoUb (f x)) → NoUb (l.mapM f) := by
  intro l
  induction l with
  | nil => intro _; exact noUb_ok _
  | cons x l ih =>
    intro h
    rw [List.mapM_cons]
    exact (h x (by simp)).bind fun _ _ => (ih fun y hy => h y (by simp [hy])).bind fun _ _ => noUb_ok _

theorem named_sub (he : Xml.Sub root e) {n : String} {x : Xml} (hx : x ∈ e.named n) : Xml.Sub root x := by
  unfold Xml.named at hx
  exact he.trans_child (List.mem_of_mem_filter hx)

theorem mem_value {n : String} (h : valueNames.contains n = true) : n ∈ valueNames := List.contains_iff_mem.1 h

theorem specie_noUb (hB : Benign root) (b : Bool) (he : Xml.Sub root e) : NoUb (loadSpecie b e) :=
  (attr_noUb _ _).bind fun _ _ => (int_noUb hB he (mem_value rfl)).bind fun _ _ =>
  (uint_noUb hB he (mem_value rfl)).bind fun _ _ => (real_noUb hB he (mem_value (by cases b <;> rfl))).bind fun _ _ =>
  (real_noUb hB he (mem_value rfl)).bind fun _ _ => (real_noUb hB he (mem_value rfl)).bind fun _ _ =>
  (real_noUb hB he (mem_value rfl)).bind fun _ _ => noUb_ok _

theorem probe_noUb (hB : Benign root) (g : GeomCfg) (he : Xml.Sub root e) : NoUb (loadProbe g e) := by
  have ia := intAttr_noUb hB he
  unfold loadProbe
  refine (attr_noUb _ _).bind fun _ _ => (attr_noUb _ _).bind fun _ _ => ?_
  split_ifs
  · exact (ia _).bind fun _ _ => (ia _).bind fun _ _ => (ia _).bind fun _ _ => (ia _).bind fun _ _ => (ia _).bind fun _ _ => noUb_ok _
  · exact (ia _).bind fun _ _ => (ia _).bind fun _ _ => noUb_ok _
  · exact (ia _).bind fun _ _ => (ia _).bind fun _ _ => noUb_ok _
  · exact (ia _).bind fun _ _ => (ia _).bind fun _ _ => (ia _).bind fun _ _ => noUb_ok _
  · exact (ia _).bind fun _ _ => (ia _).bind fun _ _ => (ia _).bind fun _ _ => (ia _).bind fun _ _ => (ia _).bind fun _ _ => noUb_ok _
  · intro h; cases h

/-- **C70 (partial)** Reading a configuration gives a configuration or ends with a message, whatever elements are
missing, repeated or unknown: not covered are empty settings, another outermost element and numbers that do not fit
(`C70_empty_violated`, `C70_root_violated`). -/
theorem C70_no_fault_partial (root : Xml) (hB : Benign root) :
    (∃ c, loadConfig (some root) = .ok c) ∨ loadConfig (some root) = .error .abort ∨
      ∃ n, loadConfig (some root) = .error (.exit n) := by
  have he := Xml.Sub.refl root
  have main : NoUb (loadConfig (some root)) := by
    unfold loadConfig
    simp only
    rw [if_neg (by simp [hB.name])]
    refine (bool_noUb hB he (mem_value rfl)).bind fun b _ => (bool_noUb hB he (mem_value rfl)).bind fun _ _ => ?_
    refine NoUb.bind (x := loadGeometry b root) ?_ fun g _ => NoUb.bind (x := loadPml root) ?_ fun _ _ =>
      NoUb.bind (x := loadTime root) ?_ fun _ _ => NoUb.bind (x := loadParticles b root) ?_ fun _ _ =>
      NoUb.bind (x := loadBeam b root) ?_ fun _ _ => NoUb.bind (x := loadDump b root) ?_ fun _ _ =>
      NoUb.bind (x := loadProbes g root) ?_ fun _ _ => noUb_ok _
    · refine (first_noUb _ _).bind fun e hx => ?_
      have hs := (first_sub hx he).1
      exact (real_noUb hB hs (mem_value rfl)).bind fun _ _ => (real_noUb hB hs (mem_value rfl)).bind fun _ _ =>
        (int_noUb hB hs (mem_value (by cases b <;> rfl))).bind fun _ _ =>
        (int_noUb hB hs (mem_value (by cases b <;> rfl))).bind fun _ _ => noUb_ok _
    · refine (first_noUb _ _).bind fun e hx => ?_
      have hs := (first_sub hx he).1
      exact (real_noUb hB hs (mem_value rfl)).bind fun _ _ => (real_noUb hB hs (mem_value rfl)).bind fun _ _ =>
        (real_noUb hB hs (mem_value rfl)).bind fun _ _ => (real_noUb hB hs (mem_value rfl)).bind fun _ _ =>
        (real_noUb hB hs (mem_value rfl)).bind fun _ _ => noUb_ok _
    · refine (first_noUb _ _).bind fun e hx => ?_
      have hs := (first_sub hx he).1
      exact (real_noUb hB hs (mem_value rfl)).bind fun _ _ => (real_noUb hB hs (mem_value rfl)).bind fun _ _ =>
        (real_noUb hB hs (mem_value rfl)).bind fun _ _ => (real_noUb hB hs (mem_value rfl)).bind fun _ _ =>
        (real_noUb hB hs (mem_value rfl)).bind fun _ _ => noUb_ok _
    · refine (first_noUb _ _).bind fun e hx => (first_noUb _ _).bind fun _ _ => ?_
      have hs := (first_sub hx he).1
      exact mapM_noUb fun x hx => specie_noUb hB b (named_sub hs hx)
    · refine (first_noUb _ _).bind fun e hx => ?_
      have hs := (first_sub hx he).1
      refine (int_noUb hB hs (mem_value rfl)).bind fun _ _ => (uint_noUb hB hs (mem_value rfl)).bind fun _ _ =>
        (uint_noUb hB hs (mem_value rfl)).bind fun _ _ => (real_noUb hB hs (mem_value rfl)).bind fun _ _ =>
        (real_noUb hB hs (mem_value rfl)).bind fun _ _ => ?_
      refine (real_noUb hB hs (mem_value (by cases b <;> rfl))).bind fun v hv => ?_
      have hu : NoUb (toUnsigned v) := by
        unfold realChild at hv
        obtain ⟨x, h1, h2⟩ := bind_ok hv
        obtain ⟨t, h3, h4⟩ := bind_ok h2
        cases h4
        obtain ⟨h5, h6⟩ := first_sub h1 hs
        have := hB.macros x t h5 (by rw [h6]; cases b <;> simp) (text_ok h3)
        unfold toUnsigned
        rw [if_pos this]
        exact noUb_ok _
      exact hu.bind fun _ _ => (real_noUb hB hs (mem_value rfl)).bind fun _ _ => (real_noUb hB hs (mem_value rfl)).bind fun _ _ =>
        (real_noUb hB hs (mem_value rfl)).bind fun _ _ => noUb_ok _
    · refine (first_noUb _ _).bind fun e hx => (first_noUb _ _).bind fun _ _ => (first_noUb _ _).bind fun _ _ => ?_
      have hs := (first_sub hx he).1
      exact (uint_noUb hB hs (mem_value rfl)).bind fun _ _ => (bool_noUb hB hs (mem_value rfl)).bind fun _ _ =>
        (int_noUb hB hs (mem_value rfl)).bind fun _ _ => noUb_ok _
    · refine (first_noUb _ _).bind fun e hx => (first_noUb _ _).bind fun e' hx' => (first_noUb _ _).bind fun _ _ => ?_
      have hs := (first_sub hx' (first_sub hx he).1).1
      exact mapM_noUb fun x hx => probe_noUb hB g (named_sub hs hx)
  cases hc : loadConfig (some root) with
  | ok c => exact .inl ⟨c, rfl⟩
  | error x =>
    cases x with
    | abort => exact .inr (.inl rfl)
    | exit n => exact .inr (.inr ⟨n, rfl⟩)
    | ub => exact absurd hc main

/-! ### Where the program fails instead -/

/-- **C70 (violated)** An empty setting, `<debug/>`, is not reported but read through a null pointer. -/
theorem C70_empty_violated (as : List (String × List Char)) (rest : List Xml) :
    loadConfig (some (nodeE "initial_parameters" (.elem "debug" as none [] :: rest))) = .error .ub := by
  unfold loadConfig
  simp only
  rw [if_neg (by simp [nodeE, Xml.name])]
  rfl

/-- **C70 (violated)** Another outermost element is not reported either. -/
theorem C70_root_violated (root : Xml) (h : root.name ≠ "initial_parameters") :
    loadConfig (some root) = .error .ub := by
  unfold loadConfig
  simp only
  rw [if_pos h]
  rfl

/-- **C70 (violated)** A beam without a name is accepted, and the name is copied from a null pointer at the first step. -/
theorem C70_beam_name_violated :
    ∃ root c, loadConfig (some root) = .ok c ∧ ∀ n, bunchName c.beam.name n = none :=
  ⟨_, _, C68_read_back { shipped false with beam_name := none }
    ⟨(shipped_ok false).1, (shipped_ok false).2, (shipped_ok false).3, (shipped_ok false).4, (shipped_ok false).5,
     (shipped_ok false).6, (shipped_ok false).7, (shipped_ok false).8, (shipped_ok false).9, (shipped_ok false).10⟩,
   fun _ => rfl⟩

/-- **C70 (violated)** So is a beam whose name does not fit the buffer, which is then overrun. -/
theorem C70_long_beam_name_violated (name : List Char) (hl : 99 ≤ name.length) :
    ∃ root c, loadConfig (some root) = .ok c ∧ c.beam.name = some name ∧ ∀ n, bunchName c.beam.name n = none := by
  refine ⟨_, _, C68_read_back { shipped false with beam_name := some name }
    ⟨(shipped_ok false).1, (shipped_ok false).2, (shipped_ok false).3, (shipped_ok false).4, (shipped_ok false).5,
     (shipped_ok false).6, (shipped_ok false).7, (shipped_ok false).8, (shipped_ok false).9, (shipped_ok false).10⟩,
    rfl, fun n => ?_⟩
  show (if Fits (name ++ '#' :: dec n) 100 then some (name ++ '#' :: dec n) else none) = none
  rw [if_neg]
  unfold Fits
  simp only [List.length_append, List.length_cons]
  omega

/-- A name with at most 88 characters is no problem: the number of a bunch has at most ten digits. -/
theorem C70_beam_name_partial (name : List Char) (n : ℕ) (hn : n < 2 ^ 32) (hl : name.length ≤ 88) :
    bunchName (some name) n = some (name ++ '#' :: dec n) := by
  show (if Fits (name ++ '#' :: dec n) 100 then some (name ++ '#' :: dec n) else none) = _
  rw [if_pos]
  have : (dec n).length ≤ 10 := by
    exact dec_length (by norm_num) (lt_of_lt_of_le hn (by norm_num))
  unfold Fits
  simp only [List.length_append, List.length_cons]
  omega

/-- **C70 (violated)** An empty path of the results is accepted and then printed from a null pointer. -/
theorem C70_path_violated :
    ∃ root c, loadConfig (some root) = .ok c ∧ startOutput c = .error .ub :=
  ⟨_, _, C68_read_back { shipped false with result_path := none }
    ⟨(shipped_ok false).1, (shipped_ok false).2, (shipped_ok false).3, (shipped_ok false).4, (shipped_ok false).5,
     (shipped_ok false).6, (shipped_ok false).7, (shipped_ok false).8, (shipped_ok false).9, (shipped_ok false).10⟩, rfl⟩

theorem toLower_isSpaceC (c : Char) : isSpaceC c.toLower = isSpaceC c := by
  unfold Char.toLower
  split_ifs with h
  · have hc : isSpaceC c = false := by
      by_contra hcon
      have : isSpaceC c = true := by simpa using hcon
      simp only [isSpaceC, decide_eq_true_eq, List.mem_cons, List.not_mem_nil, or_false] at this
      rcases this with rfl | rfl | rfl | rfl | rfl | rfl <;> exact absurd h (by decide)
    rw [hc]
    by_contra hcon
    rw [Bool.not_eq_false] at hcon
    have h3 := UInt32.le_iff_toNat_le.1 h.1
    have h4 := UInt32.le_iff_toNat_le.1 h.2
    simp only [isSpaceC, decide_eq_true_eq, List.mem_cons, List.not_mem_nil, or_false] at hcon
    have h5 : (c.val + 32).toNat ≤ 32 := by
      rcases hcon with e | e | e | e | e | e <;>
        (have := congrArg (fun x : Char => x.val.toNat) e; simp at this ⊢; omega)
    rw [UInt32.toNat_add] at h5
    simp at h3 h4 h5
    omega
  · rfl

/-- **C70** A truth value of the configuration is read as true exactly if its text begins, after white space, with
the word `true` in capital or small letters. -/
theorem C70_truth_value (s : List Char) : toBool s = true ↔
    ∃ w t rest, s = w ++ t ++ rest ∧ (∀ c ∈ w, isSpaceC c = true) ∧ t.map Char.toLower = "true".toList := by
  have e : (s.map Char.toLower).dropWhile isSpaceC = (s.dropWhile isSpaceC).map Char.toLower := by
    rw [List.dropWhile_map]
    congr 1
    congr 1
    funext c
    exact toLower_isSpaceC c
  unfold toBool
  rw [e, List.isPrefixOf_iff_prefix]
  constructor
  · rintro ⟨r, hr⟩
    obtain ⟨t, rest, h1, h2, -⟩ := List.map_eq_append_iff.1 hr.symm
    refine ⟨s.takeWhile isSpaceC, t, rest, ?_, ?_, h2⟩
    · rw [List.append_assoc, ← h1, List.takeWhile_append_dropWhile]
    · exact fun c hc => List.all_eq_true.1 List.all_takeWhile c hc
  · rintro ⟨w, t, rest, rfl, hw, ht⟩
    have hd : (w ++ t ++ rest).dropWhile isSpaceC = t ++ rest := by
      rw [List.append_assoc, List.dropWhile_append_of_pos hw]
      cases t with
      | nil => simp at ht
      | cons a t =>
        have ha : isSpaceC a = false := by
          rw [← toLower_isSpaceC]
          have : a.toLower = 't' := by
            have := congrArg List.head? ht
            simpa using this
          rw [this]; decide
        rw [List.cons_append, List.dropWhile_cons_of_neg (by simp [ha])]
    rw [hd, List.map_append, ht]
    exact ⟨rest.map Char.toLower, rfl⟩

/-- `True`, ` TRUE` and `truest` are true -/
example : toBool "True".toList = true ∧ toBool " TRUE".toList = true ∧ toBool "tea".toList = false := by
  refine ⟨?_, ?_, ?_⟩ <;> decide +kernel

/-- **C70 (violated)** `<debug>1</debug>` and `<debug>yes</debug>` are accepted and mean no. -/
theorem C70_truth_violated : toBool ['1'] = false ∧ toBool "yes".toList = false := by
  constructor <;> decide

/-- The shipped configuration is read and its probes are opened. -/
example (b : Bool) : ∃ c roots, loadConfig (some (shipped b).xml) = .ok c ∧ startOutput c = .ok roots := by
  refine ⟨_, List.replicate 6 (dataRoot ['.'] (if b then "pdp3_result_debug".toList else "pdp3_result".toList)),
    C68_read_back _ (shipped_ok b), ?_⟩
  cases b <;> rfl

/-! The shipped configuration satisfies `Benign`. -/

theorem Xml.subsL_mem {l : List Xml} {y x : Xml} (hy : y ∈ l) (hx : x ∈ Xml.subs y) : x ∈ Xml.subsL l := by
  induction l with
  | nil => cases hy
  | cons c l ih =>
    rw [Xml.subsL, List.mem_append]
    rcases List.mem_cons.1 hy with rfl | h
    · exact .inl hx
    · exact .inr (ih h)

theorem Xml.Sub.mem {e x : Xml} (h : Xml.Sub e x) : x ∈ Xml.subs e := by
  induction h with
  | refl e => cases e; rw [Xml.subs]; exact List.mem_cons_self
  | @child e y x hy _ ih =>
    obtain ⟨n, as, t, cs⟩ := e
    rw [Xml.subs]
    exact List.mem_cons_of_mem _ (Xml.subsL_mem hy ih)

theorem attr_mem {e : Xml} {a : String} {t : List Char} (h : e.attr? a = some t) :
    ∃ p ∈ (match e with | .elem _ as _ _ => as), p.2 = t := by
  obtain ⟨n, as, u, cs⟩ := e
  simp only [Xml.attr?, Option.map_eq_some_iff] at h
  obtain ⟨p, h1, h2⟩ := h
  exact ⟨p, List.mem_of_find?_eq_some h1, h2⟩

/-- The finitely many elements of the shipped file, checked one by one -/
def plainCheck (x : Xml) : Bool :=
  match x with
  | .elem n as t _ => (!valueNames.contains n || t.isSome) &&
      t.all (fun s => decide (-2 ^ 31 ≤ atoi s) && decide (atoi s < 2 ^ 31)) &&
      as.all (fun p => decide (-2 ^ 31 ≤ atoi p.2) && decide (atoi p.2 < 2 ^ 31)) &&
      (!(n == "bunch_number_macro" || n == "debug_bunch_number_macro") || t == some "1e6".toList || t == some "1e4".toList)

theorem shipped_check (b : Bool) : (shipped b).xml.subs.all plainCheck = true := by
  cases b <;> decide +kernel

theorem shipped_benign (b : Bool) : Benign (shipped b).xml := by
  have hc : ∀ x, Xml.Sub (shipped b).xml x → plainCheck x = true := fun x hx =>
    List.all_eq_true.1 (shipped_check b) x hx.mem
  have h6 : atof "1e6".toList = 10 ^ 6 := by
    have := C67_decimal (litE 1 6) [] (by simp)
    have e : (litE 1 6).text = "1e6".toList := by decide +kernel
    rw [← e]
    rw [List.nil_append] at this
    rw [this]
    norm_num [litE, Lit.value, fracValue]
  have h4 : atof "1e4".toList = 10 ^ 4 := by
    have := C67_decimal (litE 1 4) [] (by simp)
    have e : (litE 1 4).text = "1e4".toList := by decide +kernel
    rw [← e]
    rw [List.nil_append] at this
    rw [this]
    norm_num [litE, Lit.value, fracValue]
  refine ⟨rfl, ?_, ?_, ?_, ?_⟩
  · rintro ⟨n, as, t, cs⟩ hx hn ht
    have := hc _ hx
    simp only [Xml.text?] at ht
    subst ht
    simp only [Xml.name] at hn
    simp [plainCheck, hn] at this
  · rintro ⟨n, as, t, cs⟩ s hx ht
    have := hc _ hx
    simp only [Xml.text?] at ht
    subst ht
    simp only [plainCheck, Bool.and_eq_true, Option.all_some, decide_eq_true_eq] at this
    exact this.1.1.2
  · rintro ⟨n, as, t, cs⟩ a s hx ht
    have := hc _ hx
    obtain ⟨p, hp, rfl⟩ := attr_mem ht
    simp only [plainCheck, Bool.and_eq_true, List.all_eq_true, decide_eq_true_eq] at this
    exact this.1.2 p hp
  · rintro ⟨n, as, t, cs⟩ s hx hn ht
    have := hc _ hx
    simp only [Xml.text?] at ht
    subst ht
    simp only [Xml.name] at hn
    simp only [plainCheck, Bool.and_eq_true] at this
    have h := this.2
    have hn' : (n == "bunch_number_macro" || n == "debug_bunch_number_macro") = true := by simpa using hn
    rw [hn'] at h
    simp only [Bool.not_true, Bool.false_or, Bool.or_eq_true, beq_iff_eq, Option.some.injEq] at h
    rcases h with rfl | rfl
    · rw [h6]; norm_num
    · rw [h4]; norm_num

/-- A file without any settings is reported. -/
example : loadConfig (some (nodeE "initial_parameters" [])) = .error .abort := by
  unfold loadConfig
  simp only
  rw [if_neg (by simp [nodeE, Xml.name])]
  rfl

end Verif
