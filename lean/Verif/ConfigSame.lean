import Verif.ConfigProps

/-!
# What in the configuration file matters (C69)
-/

namespace Verif

/-- Two elements are the same for a reader that only looks for elements with names in `K` (specification): same name,
attributes and text, and for each name in `K` the same children of this name in the same order.  Nothing is said about
the order of children with different names, nor about children with other names. -/
inductive SameFor (K : List String) : Xml → Xml → Prop
  | mk {e e' : Xml} (name : e.name = e'.name) (attr : ∀ a, e.attr? a = e'.attr? a) (text : e.text? = e'.text?)
      (children : ∀ n ∈ K, List.Forall₂ (SameFor K) (e.children.filter fun x => x.name = n)
        (e'.children.filter fun x => x.name = n)) : SameFor K e e'

/-- The elements that the simulator reads, with debug off and on (README, parameters.xml.in) -/
def readNames (debug : Bool) : List String :=
  ["debug", "use_hdf5", "geometry", "r_size", "z_size", "pml", "comparative_l_1", "comparative_l_2", "comparative_l_3",
   "sigma_1", "sigma_2", "time", "start_time", "relaxation_time", "current_time", "end_time", "step_interval", "particles",
   "particle_specie", "charge", "mass", "left_density", "right_density", "temperature", "particle_beam",
   "initial_velocity", "number_bunches", "bunches_distance", "bunch_length", "bunch_radius", "bunch_density",
   "file_save_parameters", "result_path", "frames_per_file", "compress", "compress_level", "probes", "probe"]
  ++ (if debug then ["debug_n_grid_r", "debug_n_grid_z", "debug_number_macro", "debug_bunch_number_macro",
        "debug_data_root"]
      else ["n_grid_r", "n_grid_z", "number_macro", "bunch_number_macro", "data_root"])

variable {K : List String} {e e' : Xml}

theorem SameFor.name_eq (h : SameFor K e e') : e.name = e'.name := by cases h; assumption
theorem SameFor.attr_eq (h : SameFor K e e') (a : String) : e.attr? a = e'.attr? a := by
  cases h with | mk _ h _ _ => exact h a
theorem SameFor.text_eq (h : SameFor K e e') : e.text? = e'.text? := by cases h; assumption
theorem SameFor.named_rel (h : SameFor K e e') {n : String} (hn : n ∈ K) :
    List.Forall₂ (SameFor K) (e.named n) (e'.named n) := by
  cases h with | mk _ _ _ h => exact h n hn

theorem SameFor.bind {β : Type} (h : SameFor K e e') {n : String} (hn : n ∈ K) {k k' : Xml → Load β}
    (hk : ∀ x x', SameFor K x x' → k x = k' x') : (tryFirstChild e n >>= k) = (tryFirstChild e' n >>= k') := by
  have := h.named_rel hn
  unfold tryFirstChild
  revert this
  generalize e.named n = l
  generalize e'.named n = l'
  intro this
  cases this with
  | nil => rfl
  | cons h1 _ => exact hk _ _ h1

theorem SameFor.text (h : SameFor K e e') : textOf e = textOf e' := by unfold textOf; rw [h.text_eq]

theorem SameFor.int (h : SameFor K e e') {n : String} (hn : n ∈ K) : intChild e n = intChild e' n := by
  unfold intChild
  exact h.bind hn fun x x' hx => by rw [hx.text]

theorem SameFor.uint (h : SameFor K e e') {n : String} (hn : n ∈ K) : uintChild e n = uintChild e' n := by
  unfold uintChild
  rw [h.int hn]

theorem SameFor.real (h : SameFor K e e') {n : String} (hn : n ∈ K) : realChild e n = realChild e' n := by
  unfold realChild
  exact h.bind hn fun x x' hx => by rw [hx.text]

theorem SameFor.bool (h : SameFor K e e') {n : String} (hn : n ∈ K) : boolChild e n = boolChild e' n := by
  unfold boolChild
  exact h.bind hn fun x x' hx => by rw [hx.text]

theorem SameFor.tryAttr (h : SameFor K e e') (a : String) : tryAttribute e a = tryAttribute e' a := by
  unfold tryAttribute; rw [h.attr_eq]

theorem SameFor.intAttr (h : SameFor K e e') (a : String) : intAttr e a = Verif.intAttr e' a := by
  unfold Verif.intAttr; rw [h.tryAttr]

theorem mapM_rel {β : Type} {f : Xml → Load β} {l l' : List Xml} {R : Xml → Xml → Prop} (h : List.Forall₂ R l l')
    (hf : ∀ x x', R x x' → f x = f x') : l.mapM f = l'.mapM f := by
  induction h with
  | nil => rfl
  | cons h1 _ ih => rw [List.mapM_cons, List.mapM_cons, hf _ _ h1, ih]

theorem SameFor.probe (g : GeomCfg) (h : SameFor K e e') : loadProbe g e = loadProbe g e' := by
  unfold loadProbe
  simp only [h.tryAttr, h.intAttr, h.attr_eq]

theorem mem_read {b : Bool} {n : String} (h : (readNames b).contains n = true) : n ∈ readNames b :=
  List.contains_iff_mem.1 h

theorem SameFor.specie {b : Bool} (h : SameFor (readNames b) e e') : loadSpecie b e = loadSpecie b e' := by
  unfold loadSpecie
  rw [h.tryAttr, h.int (mem_read (by cases b <;> rfl)), h.uint (mem_read (by cases b <;> rfl)),
    h.real (mem_read (by cases b <;> rfl)), h.real (n := "left_density") (mem_read (by cases b <;> rfl)),
    h.real (n := "right_density") (mem_read (by cases b <;> rfl)), h.real (n := "temperature") (mem_read (by cases b <;> rfl))]

/-- **C69** Only the elements that the documentation names matter, and only those of the chosen mode: two files that
agree on them are read alike, whatever else they contain (such as the plot settings or, without debug, the `debug_`
settings) and in whatever order the sections and settings stand. -/
theorem C69_irrelevant (b : Bool) (root root' : Xml) (hb : boolChild root "debug" = .ok b)
    (h : SameFor (readNames b) root root') : loadConfig (some root) = loadConfig (some root') := by
  have hgeo : loadGeometry b root = loadGeometry b root' := by
    unfold loadGeometry
    refine h.bind (mem_read (by cases b <;> rfl)) fun x x' hx => ?_
    rw [hx.real (n := "r_size") (mem_read (by cases b <;> rfl)), hx.real (n := "z_size") (mem_read (by cases b <;> rfl)),
      hx.int (n := if b then "debug_n_grid_r" else "n_grid_r") (mem_read (by cases b <;> rfl)),
      hx.int (n := if b then "debug_n_grid_z" else "n_grid_z") (mem_read (by cases b <;> rfl))]
  have hpml : loadPml root = loadPml root' := by
    unfold loadPml
    refine h.bind (mem_read (by cases b <;> rfl)) fun x x' hx => ?_
    rw [hx.real (n := "comparative_l_1") (mem_read (by cases b <;> rfl)), hx.real (n := "comparative_l_2") (mem_read (by cases b <;> rfl)),
      hx.real (n := "comparative_l_3") (mem_read (by cases b <;> rfl)), hx.real (n := "sigma_1") (mem_read (by cases b <;> rfl)),
      hx.real (n := "sigma_2") (mem_read (by cases b <;> rfl))]
  have htime : loadTime root = loadTime root' := by
    unfold loadTime
    refine h.bind (mem_read (by cases b <;> rfl)) fun x x' hx => ?_
    rw [hx.real (n := "start_time") (mem_read (by cases b <;> rfl)), hx.real (n := "relaxation_time") (mem_read (by cases b <;> rfl)),
      hx.real (n := "current_time") (mem_read (by cases b <;> rfl)), hx.real (n := "end_time") (mem_read (by cases b <;> rfl)),
      hx.real (n := "step_interval") (mem_read (by cases b <;> rfl))]
  have hpart : loadParticles b root = loadParticles b root' := by
    unfold loadParticles
    refine h.bind (mem_read (by cases b <;> rfl)) fun x x' hx => ?_
    refine hx.bind (mem_read (by cases b <;> rfl)) fun _ _ _ => ?_
    exact mapM_rel (hx.named_rel (mem_read (by cases b <;> rfl))) fun y y' hy => hy.specie
  have hbeam : loadBeam b root = loadBeam b root' := by
    unfold loadBeam
    refine h.bind (mem_read (by cases b <;> rfl)) fun x x' hx => ?_
    rw [hx.int (n := "charge") (mem_read (by cases b <;> rfl)), hx.uint (n := "mass") (mem_read (by cases b <;> rfl)),
      hx.uint (n := "number_bunches") (mem_read (by cases b <;> rfl)), hx.real (n := "bunches_distance") (mem_read (by cases b <;> rfl)),
      hx.real (n := "initial_velocity") (mem_read (by cases b <;> rfl)),
      hx.real (n := if b then "debug_bunch_number_macro" else "bunch_number_macro") (mem_read (by cases b <;> rfl)),
      hx.real (n := "bunch_length") (mem_read (by cases b <;> rfl)), hx.real (n := "bunch_radius") (mem_read (by cases b <;> rfl)),
      hx.real (n := "bunch_density") (mem_read (by cases b <;> rfl)), hx.attr_eq]
  have hdump : loadDump b root = loadDump b root' := by
    unfold loadDump
    refine h.bind (mem_read (by cases b <;> rfl)) fun x x' hx => ?_
    refine hx.bind (mem_read (by cases b <;> rfl)) fun y y' hy => ?_
    refine hx.bind (n := if b then "debug_data_root" else "data_root") (mem_read (by cases b <;> rfl)) fun z z' hz => ?_
    rw [hx.uint (n := "frames_per_file") (mem_read (by cases b <;> rfl)), hx.bool (n := "compress") (mem_read (by cases b <;> rfl)),
      hx.int (n := "compress_level") (mem_read (by cases b <;> rfl)), hy.text_eq, hz.text_eq]
  have hprobes : ∀ g, loadProbes g root = loadProbes g root' := by
    intro g
    unfold loadProbes
    refine h.bind (mem_read (by cases b <;> rfl)) fun x x' hx => ?_
    refine hx.bind (mem_read (by cases b <;> rfl)) fun y y' hy => ?_
    refine hy.bind (mem_read (by cases b <;> rfl)) fun _ _ _ => ?_
    exact mapM_rel (hy.named_rel (mem_read (by cases b <;> rfl))) fun z z' hz => hz.probe g
  have hb' : boolChild root' "debug" = .ok b := by rw [← h.bool (mem_read (by cases b <;> rfl)), hb]
  unfold loadConfig
  simp only
  rw [h.name_eq]
  split_ifs
  · rfl
  · rw [hb, hb', h.bool (n := "use_hdf5") (mem_read (by cases b <;> rfl))]
    simp only [bind, Except.bind]
    rw [hgeo, hpml, htime, hpart, hbeam, hdump]
    simp only [hprobes]

theorem SameFor.refl (K : List String) : ∀ e : Xml, SameFor K e e
  | .elem n as t l => by
    refine .mk rfl (fun _ => rfl) rfl fun m _ => ?_
    rw [List.forall₂_same]
    intro x hx
    have : sizeOf x < sizeOf (Xml.elem n as t l) := by
      have := List.sizeOf_lt_of_mem (List.mem_of_mem_filter hx)
      simp only [Xml.children] at this
      simp only [Xml.elem.sizeOf_spec]
      omega
    exact SameFor.refl K x
  termination_by e => sizeOf e
  decreasing_by assumption

/-- Sections with different names may be exchanged, and elements with other names may be added. -/
theorem SameFor.perm_extra {n : String} {as : List (String × List Char)} {t : Option (List Char)} {l l' extra : List Xml}
    (hp : l'.Perm (l ++ extra)) (hd : (l.map Xml.name).Nodup) (hx : ∀ x ∈ extra, x.name ∉ K) :
    SameFor K (.elem n as t l) (.elem n as t l') := by
  refine .mk rfl (fun _ => rfl) rfl fun m hm => ?_
  have h1 : (l'.filter fun x => x.name = m).Perm (l.filter fun x => x.name = m) := by
    have h0 : (extra.filter fun x => x.name = m) = [] := by
      rw [List.filter_eq_nil_iff]
      intro x hx' e
      have e' : x.name = m := by simpa using e
      exact hx x hx' (e' ▸ hm)
    have := hp.filter (fun x => x.name = m)
    rw [List.filter_append, h0, List.append_nil] at this
    exact this
  have h2 : (l.filter fun x => x.name = m).length ≤ 1 := by
    have h3 : ((l.map Xml.name).filter fun y => y = m).length ≤ 1 := by
      rw [← List.countP_eq_length_filter]
      have := List.nodup_iff_count_le_one.1 hd m
      simpa [List.count, beq_eq_decide] using this
    rw [List.filter_map, List.length_map] at h3
    exact h3
  have h4 : (l'.filter fun x => x.name = m) = l.filter fun x => x.name = m := by
    have := h1.length_eq
    generalize (l.filter fun x => x.name = m) = a at *
    generalize (l'.filter fun x => x.name = m) = b at *
    match a, h2 with
    | [], _ => simpa using h1
    | [x], _ => exact List.perm_singleton.1 h1
  simp only [Xml.children]
  rw [h4, List.forall₂_same]
  intro x _
  exact SameFor.refl K x

/-- Not vacuous: any configuration file with its sections in the reverse order and with plot settings -/
example (d : Desc) (h : d.Ok) :
    loadConfig (some (nodeE "initial_parameters" (nodeE "plot" [] :: d.xml.children.reverse))) = .ok d.meaning := by
  rw [← C68_read_back d h]
  symm
  have hb : boolChild d.xml "debug" = .ok d.debug := boolChild_of (rest := []) (by find_child)
  apply C69_irrelevant d.debug d.xml _ hb
  have : d.xml = .elem "initial_parameters" [] none d.xml.children := rfl
  rw [this]
  refine SameFor.perm_extra (extra := [nodeE "plot" []]) ?_ ?_ ?_
  · refine List.Perm.trans (List.Perm.cons _ (List.reverse_perm _)) ?_
    exact (List.perm_append_singleton _ _).symm
  · simp [Desc.xml, nodeE, Xml.children, leafE, Xml.name]
  · intro x hx
    rw [List.mem_singleton] at hx
    subst hx
    cases d.debug <;> simp [readNames, nodeE, Xml.name]

end Verif
