import Verif.ConfigSpec

/-!
# Reading the configuration (C68 – C70)
-/

namespace Verif

/-! ## C68: the configuration is read as written -/

theorem intText_fmt {n : ℤ} (h : Int32 n) : intText (fmtInt n) = .ok n := by
  unfold intText
  rw [C67_integer_text]
  exact if_pos h

theorem first_of {e : Xml} {name : String} {x : Xml} {rest : List Xml} (h : e.named name = x :: rest) :
    tryFirstChild e name = .ok x := by
  unfold tryFirstChild; rw [h]

theorem intChild_of {e : Xml} {name : String} {n : ℤ} {rest : List Xml} (h : e.named name = leafE name (fmtInt n) :: rest)
    (hn : Int32 n) : intChild e name = .ok n := by
  unfold intChild
  rw [first_of h]
  exact intText_fmt hn

theorem uintChild_of {e : Xml} {name : String} {n : ℕ} {rest : List Xml} (h : e.named name = leafE name (fmtInt n) :: rest)
    (hn : Int32 n) : uintChild e name = .ok (n : ℤ) := by
  unfold uintChild
  rw [intChild_of h hn]
  have := hn.2
  exact congrArg Except.ok (u32_of_range (by omega) (by omega))

theorem realChild_of {e : Xml} {name : String} {l : Lit} {rest : List Xml} (h : e.named name = leafE name l.text :: rest) :
    realChild e name = .ok l.value := by
  unfold realChild
  rw [first_of h]
  have := C67_decimal l [] (by simp)
  exact congrArg Except.ok this

theorem toBool_text (b : Bool) : toBool (boolText b) = b := by cases b <;> decide +kernel

theorem boolChild_of {e : Xml} {name : String} {b : Bool} {rest : List Xml} (h : e.named name = leafE name (boolText b) :: rest) :
    boolChild e name = .ok b := by
  unfold boolChild
  rw [first_of h]
  exact congrArg Except.ok (toBool_text b)

theorem mapM_ok {α β : Type} {f : α → Load β} {g : α → β} : ∀ {l : List α}, (∀ x ∈ l, f x = .ok (g x)) →
    l.mapM f = .ok (l.map g) := by
  intro l
  induction l with
  | nil => intro _; rfl
  | cons x l ih =>
    intro h
    rw [List.mapM_cons, h x (by simp), ih (fun y hy => h y (by simp [hy]))]
    rfl

/-- Finding a child by name in a list of children that is written out -/
macro "find_child" : tactic =>
  `(tactic| simp [Xml.named, Xml.children, SpecieDesc.xml, Desc.xml, nodeE, leafE, Xml.name])

theorem loadSpecie_xml (debug : Bool) (d : SpecieDesc) (h : Int32 d.charge ∧ Int32 d.mass) :
    loadSpecie debug d.xml = .ok (d.meaning debug) := by
  have hn : tryAttribute d.xml "name" = .ok d.name := by simp [tryAttribute, Xml.attr?, SpecieDesc.xml]
  have hm : realChild d.xml (if debug then "debug_number_macro" else "number_macro")
      = .ok (if debug then d.debug_number_macro else d.number_macro).value := by
    cases debug
    · exact realChild_of (name := "number_macro") (l := d.number_macro) (rest := []) (by find_child)
    · exact realChild_of (name := "debug_number_macro") (l := d.debug_number_macro) (rest := []) (by find_child)
  unfold loadSpecie
  rw [hn, hm, intChild_of (name := "charge") (n := d.charge) (rest := []) (by find_child) h.1,
    uintChild_of (name := "mass") (n := d.mass) (rest := []) (by find_child) h.2,
    realChild_of (name := "left_density") (l := d.left_density) (rest := []) (by find_child),
    realChild_of (name := "right_density") (l := d.right_density) (rest := []) (by find_child),
    realChild_of (name := "temperature") (l := d.temperature) (rest := []) (by find_child)]
  rfl

theorem loadProbe_xml (g : GeomCfg) (d : ProbeDesc) (h : d.window.Fits32 ∧ Int32 d.schedule) :
    loadProbe g d.xml = .ok (d.meaning g.n_grid_r g.n_grid_z) := by
  obtain ⟨component, specie, window, schedule⟩ := d
  obtain ⟨h1, h2⟩ := h
  have hsp : ((ProbeDesc.xml ⟨component, specie, window, schedule⟩).attr? "specie").getD noneText = specie.getD noneText := by
    cases window <;> cases specie <;> simp [Xml.attr?, ProbeDesc.xml, Window.attrs]
  unfold loadProbe
  rw [hsp]
  cases window <;> simp only [Window.Fits32] at h1 <;> cases specie <;>
    simp [tryAttribute, intAttr, Xml.attr?, ProbeDesc.xml, Window.attrs, intText_fmt, h1, h2, ProbeDesc.meaning, bind,
      Except.bind, pure, Except.pure]

theorem named_map {α : Type} (name : String) (f : α → Xml) (hf : ∀ x, (f x).name = name) (l : List α) (p : String) :
    (nodeE p (l.map f)).named name = l.map f := by
  unfold Xml.named nodeE Xml.children
  rw [List.filter_eq_self]
  intro x hx
  obtain ⟨y, _, rfl⟩ := List.mem_map.1 hx
  simpa using hf y

/-- **C68** A configuration is read as it is written: from the file that describes it the simulator gets exactly
these numbers, texts, species and probes, in the order of the file. -/
theorem C68_read_back (d : Desc) (h : d.Ok) : loadConfig (some d.xml) = .ok d.meaning := by
  have hg : loadGeometry d.debug d.xml = .ok ⟨d.r_size.value, d.z_size.value, d.nr, d.nz⟩ := by
    unfold loadGeometry
    obtain ⟨e, he⟩ : ∃ e, e = nodeE "geometry" [leafE "r_size" d.r_size.text, leafE "z_size" d.z_size.text,
       leafE "n_grid_r" (fmtInt d.n_grid_r),
       leafE "n_grid_z" (fmtInt d.n_grid_z), leafE "debug_n_grid_r" (fmtInt d.debug_n_grid_r),
       leafE "debug_n_grid_z" (fmtInt d.debug_n_grid_z)] := ⟨_, rfl⟩
    have hr : intChild e (if d.debug then "debug_n_grid_r" else "n_grid_r") = .ok d.nr := by
      have hnr := h.nr
      unfold Desc.nr at hnr ⊢
      cases hd : d.debug <;> simp only [hd, if_true, if_false, Bool.false_eq_true] at hnr ⊢
      · exact intChild_of (rest := []) (by rw [he]; find_child) hnr
      · exact intChild_of (rest := []) (by rw [he]; find_child) hnr
    have hz : intChild e (if d.debug then "debug_n_grid_z" else "n_grid_z") = .ok d.nz := by
      have hnz := h.nz
      unfold Desc.nz at hnz ⊢
      cases hd : d.debug <;> simp only [hd, if_true, if_false, Bool.false_eq_true] at hnz ⊢
      · exact intChild_of (rest := []) (by rw [he]; find_child) hnz
      · exact intChild_of (rest := []) (by rw [he]; find_child) hnz
    rw [first_of (name := "geometry") (x := e) (e := d.xml) (rest := []) (by rw [he]; find_child)]
    simp only [bind, Except.bind]
    rw [hr, hz, realChild_of (name := "r_size") (l := d.r_size) (rest := []) (by rw [he]; find_child),
      realChild_of (name := "z_size") (l := d.z_size) (rest := []) (by rw [he]; find_child)]
    rfl
  have hpml : loadPml d.xml = .ok ⟨d.l_1.value, d.l_2.value, d.l_3.value, d.sigma_1.value, d.sigma_2.value⟩ := by
    unfold loadPml
    rw [first_of (name := "pml") (x := nodeE "pml" [leafE "comparative_l_1" d.l_1.text, leafE "comparative_l_2" d.l_2.text,
       leafE "comparative_l_3" d.l_3.text, leafE "sigma_1" d.sigma_1.text, leafE "sigma_2" d.sigma_2.text]) (rest := [])
       (by find_child)]
    simp only [bind, Except.bind]
    rw [realChild_of (name := "comparative_l_1") (l := d.l_1) (rest := []) (by find_child), realChild_of (name := "comparative_l_2") (l := d.l_2) (rest := []) (by find_child), realChild_of (name := "comparative_l_3") (l := d.l_3) (rest := []) (by find_child), realChild_of (name := "sigma_1") (l := d.sigma_1) (rest := []) (by find_child), realChild_of (name := "sigma_2") (l := d.sigma_2) (rest := []) (by find_child)]
    rfl
  have htime : loadTime d.xml = .ok ⟨d.current_time.value, d.start_time.value, d.relaxation_time.value, d.end_time.value,
      d.step_interval.value⟩ := by
    unfold loadTime
    rw [first_of (name := "time") (x := nodeE "time" [leafE "start_time" d.start_time.text,
       leafE "relaxation_time" d.relaxation_time.text,
       leafE "current_time" d.current_time.text, leafE "end_time" d.end_time.text,
       leafE "step_interval" d.step_interval.text]) (rest := []) (by find_child)]
    simp only [bind, Except.bind]
    rw [realChild_of (name := "start_time") (l := d.start_time) (rest := []) (by find_child), realChild_of (name := "relaxation_time") (l := d.relaxation_time) (rest := []) (by find_child), realChild_of (name := "current_time") (l := d.current_time) (rest := []) (by find_child), realChild_of (name := "end_time") (l := d.end_time) (rest := []) (by find_child), realChild_of (name := "step_interval") (l := d.step_interval) (rest := []) (by find_child)]
    rfl
  have hsp : loadParticles d.debug d.xml = .ok (d.species.map (SpecieDesc.meaning d.debug)) := by
    unfold loadParticles
    rw [first_of (name := "particles") (x := nodeE "particles" (d.species.map SpecieDesc.xml)) (rest := []) (by find_child)]
    simp only [bind, Except.bind]
    have hnm := named_map "particle_specie" SpecieDesc.xml (fun _ => rfl) d.species "particles"
    obtain ⟨s, l, hsl⟩ := List.exists_cons_of_ne_nil h.species_ne
    rw [first_of (x := s.xml) (rest := l.map SpecieDesc.xml) (by rw [hnm, hsl]; rfl)]
    simp only
    rw [hnm, List.mapM_map]
    exact mapM_ok fun x hx => loadSpecie_xml d.debug x (h.species x hx)
  have hbeam : loadBeam d.debug d.xml = .ok d.meaning.beam := by
    unfold loadBeam
    obtain ⟨e, he⟩ : ∃ e, e = Xml.elem "particle_beam" (d.beam_name.toList.map fun s => ("name", s)) none [leafE "charge" (fmtInt d.beam_charge),
       leafE "mass" (fmtInt d.beam_mass), leafE "initial_velocity" d.initial_velocity.text,
       leafE "number_bunches" (fmtInt d.number_bunches), leafE "bunches_distance" d.bunches_distance.text,
       leafE "bunch_number_macro" d.bunch_number_macro.text,
       leafE "debug_bunch_number_macro" d.debug_bunch_number_macro.text, leafE "bunch_length" d.bunch_length.text,
       leafE "bunch_radius" d.bunch_radius.text, leafE "bunch_density" d.bunch_density.text] := ⟨_, rfl⟩
    have hm : realChild e (if d.debug then "debug_bunch_number_macro" else "bunch_number_macro")
        = .ok (if d.debug then d.debug_bunch_number_macro else d.bunch_number_macro).value := by
      cases d.debug
      · exact realChild_of (rest := []) (by rw [he]; find_child)
      · exact realChild_of (rest := []) (by rw [he]; find_child)
    rw [first_of (name := "particle_beam") (x := e) (e := d.xml) (rest := []) (by rw [he]; find_child)]
    simp only [bind, Except.bind]
    have hu : toUnsigned (if d.debug then d.debug_bunch_number_macro else d.bunch_number_macro).value
        = .ok ⌊(if d.debug then d.debug_bunch_number_macro else d.bunch_number_macro).value⌋ := by
      unfold toUnsigned
      rw [if_pos ⟨by linarith [h.macros.1], h.macros.2⟩, max_eq_right (Int.floor_nonneg.2 h.macros.1)]
    have ha : e.attr? "name" = d.beam_name := by rw [he]; cases d.beam_name <;> simp [Xml.attr?]
    rw [hm, ha, intChild_of (name := "charge") (n := d.beam_charge) (rest := []) (by rw [he]; find_child) h.beam.1,
      uintChild_of (name := "mass") (n := d.beam_mass) (rest := []) (by rw [he]; find_child) h.beam.2.1,
      uintChild_of (name := "number_bunches") (n := d.number_bunches) (rest := []) (by rw [he]; find_child) h.beam.2.2,
      realChild_of (name := "bunches_distance") (l := d.bunches_distance) (rest := []) (by rw [he]; find_child),
      realChild_of (name := "initial_velocity") (l := d.initial_velocity) (rest := []) (by rw [he]; find_child),
      realChild_of (name := "bunch_length") (l := d.bunch_length) (rest := []) (by rw [he]; find_child),
      realChild_of (name := "bunch_radius") (l := d.bunch_radius) (rest := []) (by rw [he]; find_child),
      realChild_of (name := "bunch_density") (l := d.bunch_density) (rest := []) (by rw [he]; find_child)]
    simp only
    rw [hu]
    rfl
  obtain ⟨e, he⟩ : ∃ e, e = nodeE "file_save_parameters" [.elem "result_path" [] d.result_path [], .elem "data_root" [] d.data_root [],
       .elem "debug_data_root" [] d.debug_data_root [], leafE "frames_per_file" (fmtInt d.frames_per_file),
       leafE "compress" (boolText d.compress), leafE "compress_level" (fmtInt d.compress_level),
       nodeE "probes" (d.probes.map ProbeDesc.xml)] := ⟨_, rfl⟩
  have hfile : tryFirstChild d.xml "file_save_parameters" = .ok e := by
    rw [first_of (name := "file_save_parameters") (x := e) (rest := []) (by rw [he]; find_child)]
  have hdump : loadDump d.debug d.xml = .ok d.meaning.dump := by
    unfold loadDump
    rw [hfile]
    simp only [bind, Except.bind]
    have hdr : tryFirstChild e (if d.debug then "debug_data_root" else "data_root")
        = .ok (.elem (if d.debug then "debug_data_root" else "data_root") [] (if d.debug then d.debug_data_root else d.data_root) []) := by
      cases d.debug
      · exact first_of (rest := []) (by rw [he]; find_child)
      · exact first_of (rest := []) (by rw [he]; find_child)
    rw [hdr, first_of (name := "result_path") (x := .elem "result_path" [] d.result_path []) (rest := []) (by rw [he]; find_child),
      uintChild_of (name := "frames_per_file") (n := d.frames_per_file) (rest := []) (by rw [he]; find_child) h.fpf,
      boolChild_of (name := "compress") (b := d.compress) (rest := []) (by rw [he]; find_child),
      intChild_of (name := "compress_level") (n := d.compress_level) (rest := []) (by rw [he]; find_child) h.level]
    rfl
  have hprobes : loadProbes ⟨d.r_size.value, d.z_size.value, d.nr, d.nz⟩ d.xml = .ok (d.probes.map (ProbeDesc.meaning d.nr d.nz)) := by
    unfold loadProbes
    rw [hfile]
    simp only [bind, Except.bind]
    rw [first_of (name := "probes") (x := nodeE "probes" (d.probes.map ProbeDesc.xml)) (rest := []) (by rw [he]; find_child)]
    simp only
    have hnm := named_map "probe" ProbeDesc.xml (fun _ => rfl) d.probes "probes"
    obtain ⟨s, l, hsl⟩ := List.exists_cons_of_ne_nil h.probes_ne
    rw [first_of (x := s.xml) (rest := l.map ProbeDesc.xml) (by rw [hnm, hsl]; rfl)]
    simp only
    rw [hnm, List.mapM_map]
    exact mapM_ok fun x hx => loadProbe_xml _ x (h.probes x hx)
  unfold loadConfig
  simp only
  rw [if_neg (by simp [Desc.xml, nodeE, Xml.name]),
    boolChild_of (name := "debug") (b := d.debug) (rest := []) (by find_child),
    boolChild_of (name := "use_hdf5") (b := d.use_hdf5) (rest := []) (by find_child)]
  simp only [bind, Except.bind]
  rw [hg, hpml, htime, hsp, hbeam, hdump]
  simp only
  rw [hprobes]
  rfl

/-! ## Not vacuous: the file that comes with the program -/

def litI (n : ℕ) : Lit := ⟨false, n, [], none⟩
def litE (n : ℕ) (e : ℤ) : Lit := ⟨false, n, [], some e⟩
def litF (n : ℕ) (ds : List (Fin 10)) : Lit := ⟨false, n, ds, none⟩

/-- parameters.xml.in, in debug mode or not -/
def shipped (debug : Bool) : Desc where
  debug := debug
  use_hdf5 := false
  r_size := litF 0 [2, 5]
  z_size := litF 2 [0]
  n_grid_r := 255
  n_grid_z := 2047
  debug_n_grid_r := 31
  debug_n_grid_z := 255
  l_1 := litI 0
  l_2 := litI 0
  l_3 := litI 0
  sigma_1 := litE 1 (-5)
  sigma_2 := litE 7 (-2)
  start_time := litI 0
  relaxation_time := litI 0
  current_time := litI 0
  end_time := litE 5 (-8)
  step_interval := litE 1 (-13)
  species :=
    [⟨"electrons".toList, -1, 1, litE 1 6, litE 1 4, litE 1 16, ⟨false, 1, [0, 5], some 16⟩, litF 1 [0]⟩,
     ⟨"ions".toList, 1, 1836, litE 1 6, litE 1 4, litE 1 16, ⟨false, 1, [0, 5], some 16⟩, litF 0 [1]⟩]
  beam_name := some "electron_beam".toList
  beam_charge := -1
  beam_mass := 1
  initial_velocity := litE 2 8
  number_bunches := 2
  bunches_distance := litF 0 [2]
  bunch_number_macro := litE 1 6
  debug_bunch_number_macro := litE 1 4
  bunch_length := litF 0 [0, 2]
  bunch_radius := litF 0 [0, 2]
  bunch_density := litE 1 15
  result_path := some ['.']
  data_root := some "pdp3_result".toList
  debug_data_root := some "pdp3_result_debug".toList
  frames_per_file := 10
  compress := false
  compress_level := 1
  probes :=
    [⟨"E_r".toList, none, .col 100, 50⟩, ⟨"E_r".toList, none, .row 10, 50⟩, ⟨"rho_beam".toList, none, .dot 10 50, 5⟩,
     ⟨"E_r".toList, none, .frame 0 0 10 200, 5⟩, ⟨"T".toList, some "electrons".toList, .frame 0 0 10 20, 5⟩,
     ⟨"electrons".toList, none, .mpframe 0 0 10 20, 5⟩]

theorem shipped_ok (debug : Bool) : (shipped debug).Ok := by
  constructor
  · cases debug <;> norm_num [Int32, Desc.nr, shipped]
  · cases debug <;> norm_num [Int32, Desc.nz, shipped]
  · simp [shipped, Int32]
  · simp [shipped]
  · simp [shipped, Int32]
  · cases debug <;> norm_num [shipped, litE, Lit.value, fracValue]
  · simp [shipped, Int32]
  · simp [shipped, Int32]
  · simp [shipped, Int32, Window.Fits32]
  · simp [shipped]

/-- The shipped file is read; the time step is 1e-13 and a bunch has 10000 particles in debug mode. -/
example : ∃ c, loadConfig (some (shipped true).xml) = .ok c ∧ c.time.delta_t = 1 / 10 ^ 13 ∧ c.beam.number_macro = 10000 ∧
    c.geom.n_grid_r = 31 := by
  refine ⟨_, C68_read_back _ (shipped_ok true), ?_, ?_, rfl⟩
  · norm_num [Desc.meaning, shipped, litE, Lit.value, fracValue]
  · norm_num [Desc.meaning, shipped, litE, Lit.value, fracValue]

end Verif
