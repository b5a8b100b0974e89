import Verif.Output
import Verif.ProbeProps
import Verif.CacheProps
import Verif.DiagProps

/-!
# Several probes in one run (C61), buffers (C62), macroparticle probes (C63)
-/

namespace Verif

/-! ## Texts -/

/-- Two texts can be split at the last character that does not satisfy `P`. -/
theorem split_last (P : Char → Prop) {x y s t : List Char} {c c' : Char} (hs : ∀ d ∈ s, P d)
    (ht : ∀ d ∈ t, P d) (hc : ¬ P c) (hc' : ¬ P c')
    (h : x ++ c :: s = y ++ c' :: t) : x = y ∧ c = c' ∧ s = t := by
  have hr := congrArg List.reverse h
  simp only [List.reverse_append, List.reverse_cons, List.append_assoc, List.singleton_append] at hr
  have hs' : ∀ d ∈ s.reverse, P d := fun d hd => hs d (List.mem_reverse.1 hd)
  have ht' : ∀ d ∈ t.reverse, P d := fun d hd => ht d (List.mem_reverse.1 hd)
  have key : ∀ (u v p q : List Char), (∀ d ∈ u, P d) → (∀ d ∈ v, P d) →
      u ++ c :: p = v ++ c' :: q → u = v ∧ c = c' ∧ p = q := by
    intro u
    induction u with
    | nil =>
      intro v p q _ hv h
      cases v with
      | nil => simp at h; exact ⟨rfl, h⟩
      | cons d v =>
        simp only [List.nil_append, List.cons_append, List.cons.injEq] at h
        exact absurd (h.1 ▸ hv d (by simp)) hc
    | cons e u ih =>
      intro v p q hu hv h
      cases v with
      | nil =>
        simp only [List.nil_append, List.cons_append, List.cons.injEq] at h
        exact absurd (h.1 ▸ hu e (by simp)) hc'
      | cons d v =>
        simp only [List.cons_append, List.cons.injEq] at h
        obtain ⟨h1, h2, h3⟩ := ih v p q (fun d hd => hu d (by simp [hd])) (fun d hd => hv d (by simp [hd])) h.2
        exact ⟨by rw [h.1, h1], h2, h3⟩
  obtain ⟨h1, h2, h3⟩ := key _ _ _ _ hs' ht' hr
  exact ⟨List.reverse_injective h3, h2, List.reverse_injective h1⟩

/-- characters of a number -/
def NumChar (c : Char) : Prop := c.isDigit = true ∨ c = '-'

theorem fmtInt_chars (n : ℤ) : ∀ c ∈ fmtInt n, NumChar c := by
  intro c hc
  unfold fmtInt at hc
  split_ifs at hc
  · rcases List.mem_cons.1 hc with h | h
    · exact .inr h
    · exact .inl (dec_digits _ c h)
  · exact .inl (dec_digits _ c hc)

theorem fmtInt_injective : Function.Injective fmtInt := by
  intro a b h
  unfold fmtInt at h
  have hneg : ∀ n m : ℕ, '-' :: dec n ≠ dec m := by
    intro n m h
    have := dec_digits m '-' (by rw [← h]; simp)
    revert this; decide
  split_ifs at h with h1 h2 h2
  · have := dec_injective (List.cons.inj h).2; omega
  · exact absurd h (hneg _ _)
  · exact absurd h.symm (hneg _ _)
  · have := dec_injective h; omega

theorem fmtInt_sep {x y : List Char} {c : Char} {m n : ℤ} (hc : ¬ NumChar c)
    (h : x ++ [c] ++ fmtInt m = y ++ [c] ++ fmtInt n) : x = y ∧ m = n := by
  have h' : x ++ c :: fmtInt m = y ++ c :: fmtInt n := by simpa using h
  obtain ⟨h1, _, h3⟩ := split_last NumChar (fmtInt_chars m) (fmtInt_chars n) hc hc h'
  exact ⟨h1, fmtInt_injective h3⟩

/-! ## Paths -/

/-- Two probes show the same part of the arrays (specification). -/
def SameWindow (p q : ProbeDecl) : Prop :=
  p.kind = q.kind ∧ match p.kind with
  | .frame | .mpframe => p.start_r = q.start_r ∧ p.start_z = q.start_z ∧ p.end_r = q.end_r ∧ p.end_z = q.end_z
  | .col => p.start_z = q.start_z
  | .row => p.start_r = q.start_r
  | .dot => p.start_r = q.start_r ∧ p.start_z = q.start_z

/-- A name without a slash. -/
def Plain (s : List Char) : Prop := '/' ∉ s

theorem colon_sep : ¬ NumChar ':' := by unfold NumChar; decide
theorem under_sep : ¬ NumChar '_' := by unfold NumChar; decide
theorem slash_sep : ¬ NumChar '/' := by unfold NumChar; decide

theorem fmtInt_plain (n : ℤ) : '/' ∉ fmtInt n := fun h => slash_sep (fmtInt_chars n _ h)
theorem dec_plain (n : ℕ) : '/' ∉ dec n := fun h => by
  have := dec_digits n _ h; revert this; decide

theorem leaf_plain (p : ProbeDecl) : Plain p.leaf := by
  unfold Plain ProbeDecl.leaf
  cases p.kind <;> simp [fmtInt_plain]

theorem leaf_eq_iff (p q : ProbeDecl) : p.leaf = q.leaf ↔ SameWindow p q := by
  constructor
  · intro h
    have hd : p.leaf.head? = q.leaf.head? := by rw [h]
    have hk : p.kind = q.kind := by
      unfold ProbeDecl.leaf at hd
      cases hp : p.kind <;> cases hq : q.kind <;> rw [hp, hq] at hd <;> simp at hd ⊢
    refine ⟨hk, ?_⟩
    unfold ProbeDecl.leaf at h
    rw [← hk] at h
    cases hp : p.kind <;> rw [hp] at h <;> simp only at h ⊢
    · obtain ⟨h, e4⟩ := fmtInt_sep colon_sep h
      obtain ⟨h, e3⟩ := fmtInt_sep under_sep h
      obtain ⟨h, e2⟩ := fmtInt_sep colon_sep h
      exact ⟨fmtInt_injective (List.append_cancel_left h), e2, e3, e4⟩
    · exact fmtInt_injective (List.append_cancel_left h)
    · exact fmtInt_injective (List.append_cancel_left h)
    · obtain ⟨h, e2⟩ := fmtInt_sep under_sep h
      exact ⟨fmtInt_injective (List.append_cancel_left h), e2⟩
    · obtain ⟨h, e4⟩ := fmtInt_sep colon_sep h
      obtain ⟨h, e3⟩ := fmtInt_sep under_sep h
      obtain ⟨h, e2⟩ := fmtInt_sep colon_sep h
      exact ⟨fmtInt_injective (List.append_cancel_left h), e2, e3, e4⟩
  · rintro ⟨hk, h⟩
    unfold ProbeDecl.leaf
    rw [← hk]
    cases hp : p.kind <;> rw [hp] at h <;> simp only at h ⊢
    · rw [h.1, h.2.1, h.2.2.1, h.2.2.2]
    · rw [h]
    · rw [h]
    · rw [h.1, h.2]
    · rw [h.1, h.2.1, h.2.2.1, h.2.2.2]

theorem slash_split {x y s t : List Char} (hs : Plain s) (ht : Plain t) (h : x ++ '/' :: s = y ++ '/' :: t) :
    x = y ∧ s = t := by
  obtain ⟨h1, _, h3⟩ := split_last (fun c => c ≠ '/') (fun d hd e => hs (e ▸ hd)) (fun d hd e => ht (e ▸ hd))
    (by simp) (by simp) h
  exact ⟨h1, h3⟩

/-- **C61** Two probes of names without slashes write to the same directory exactly if they have the same
component, species and window.  The schedule plays no part. -/
theorem C61_directory (root : List Char) (p q : ProbeDecl) (hp : Plain p.component) (hq : Plain q.component)
    (hps : Plain p.specie) (hqs : Plain q.specie) :
    p.path root = q.path root ↔ p.component = q.component ∧ p.specie = q.specie ∧ SameWindow p q := by
  unfold ProbeDecl.path
  constructor
  · intro h
    have h' := List.append_cancel_left h
    have h'' : p.resultComponent ++ '/' :: p.leaf = q.resultComponent ++ '/' :: q.leaf := (List.cons.inj h').2
    obtain ⟨h1, h2⟩ := slash_split (leaf_plain p) (leaf_plain q) h''
    have hw := (leaf_eq_iff p q).1 h2
    unfold ProbeDecl.resultComponent at h1
    split_ifs at h1 with a b b
    · exact ⟨h1, a.trans b.symm, hw⟩
    · exact absurd (h1 ▸ hp) (by unfold Plain; simp)
    · exact absurd (h1.symm ▸ hq) (by unfold Plain; simp)
    · obtain ⟨e1, e2⟩ := slash_split hps hqs h1
      exact ⟨e1, e2, hw⟩
  · rintro ⟨h1, h2, h3⟩
    rw [(leaf_eq_iff p q).2 h3]
    unfold ProbeDecl.resultComponent
    rw [h1, h2]

/-! ## One probe touches only its directory -/

/-- `path` is a file directly in `dir`. -/
def Under (dir path : List Char) : Prop := ∃ s, Plain s ∧ path = dir ++ '/' :: s

theorem under_disjoint {d d' path : List Char} (h : Under d path) (h' : Under d' path) : d = d' := by
  obtain ⟨s, hs, rfl⟩ := h
  obtain ⟨t, ht, e⟩ := h'
  exact (slash_split hs ht e).1

/-- Same files in `dir` -/
def AgreeIn (dir : List Char) (a b : OutFS) : Prop := ∀ path, Under dir path → a path = b path

/-- Same files outside `dir` -/
def AgreeOut (dir : List Char) (a b : OutFS) : Prop := ∀ path, ¬ Under dir path → a path = b path

/-- The operation reads and changes files of `dir` only. -/
def LocalIO (dir : List Char) (r : OutFS → Option OutFS) : Prop :=
  (∀ a b, AgreeIn dir a b → (r a = none ∧ r b = none) ∨ ∃ a' b', r a = some a' ∧ r b = some b' ∧ AgreeIn dir a' b') ∧
  (∀ a a', r a = some a' → AgreeOut dir a a')

theorem LocalIO.id (dir : List Char) : LocalIO dir fun fs => some fs :=
  ⟨fun a b h => .inr ⟨a, b, rfl, rfl, h⟩, fun a a' h => by cases h; exact fun _ _ => rfl⟩

theorem LocalIO.fail (dir : List Char) : LocalIO dir fun _ => none :=
  ⟨fun _ _ _ => .inl ⟨rfl, rfl⟩, fun _ _ h => by cases h⟩

theorem LocalIO.append {dir path : List Char} (hp : Under dir path) (l : List ℝ) :
    LocalIO dir fun fs => some (fs.append path l) := by
  constructor
  · intro a b h
    refine .inr ⟨_, _, rfl, rfl, ?_⟩
    intro q hq
    unfold OutFS.append
    by_cases e : q = path
    · subst e; simp [h _ hq]
    · simp [Function.update_of_ne e, h _ hq]
  · intro a a' h q hq
    cases h
    unfold OutFS.append
    rw [Function.update_of_ne]
    rintro rfl; exact hq hp

theorem LocalIO.foldlM {dir : List Char} {α : Type} (r : OutFS → α → Option OutFS)
    (h : ∀ x, LocalIO dir fun fs => r fs x) (l : List α) : LocalIO dir fun fs => l.foldlM r fs := by
  induction l with
  | nil => exact LocalIO.id dir
  | cons x l ih =>
    constructor
    · intro a b hab
      simp only [List.foldlM_cons]
      rcases (h x).1 a b hab with ⟨e1, e2⟩ | ⟨a', b', e1, e2, h'⟩
      · left; simp only at e1 e2; rw [e1, e2]; exact ⟨rfl, rfl⟩
      · simp only at e1 e2
        rw [e1, e2]
        exact ih.1 a' b' h'
    · intro a a' ha
      simp only [List.foldlM_cons] at ha
      rcases e : r a x with _ | b
      · rw [e] at ha; cases ha
      · rw [e] at ha
        intro path hp
        rw [(h x).2 a b e path hp, ih.2 b a' ha path hp]

theorem dataPath_under {dir name path : List Char} (hn : Plain name) (h : dataPath dir name = some path) :
    Under dir path := by
  unfold dataPath at h
  simp only at h
  split_ifs at h
  cases h
  exact ⟨_, by unfold Plain at *; simp [hn], rfl⟩

theorem writeArr_local (nr nz : ℕ) (root : List Char) (p : ProbeDecl) (name : List Char) (hn : Plain name) (g : Grid) :
    LocalIO (p.path root) fun fs => writeArr nr nz root p name g fs := by
  unfold writeArr
  cases hk : p.kind.plain with
  | none => exact LocalIO.id _
  | some k =>
    simp only
    cases hd : dataPath (p.path root) name with
    | none => exact LocalIO.fail _
    | some path =>
      simp only [Option.bind_some]
      cases readCells nr nz g (p.cfg k).cells with
      | none => exact LocalIO.fail _
      | some l => exact LocalIO.append (dataPath_under hn hd) _

theorem mpFiles_plain : ∀ f ∈ mpFiles, Plain f.1 := by
  intro f hf
  simp only [mpFiles, List.mem_cons, List.not_mem_nil, or_false] at hf
  unfold Plain
  rcases hf with rfl | rfl | rfl | rfl | rfl <;> decide

theorem mpWrite_local (G : Geom) (root : List Char) (p : ProbeDecl) (name : List Char) (hn : Plain name)
    (ps : List Particle) : LocalIO (p.path root) fun fs => mpWrite G root p name ps fs := by
  classical
  have step : ∀ f : List Char × (Particle → ℝ), Plain f.1 → LocalIO (p.path root) fun fs =>
      (dataPath (p.path root) (name ++ f.1)).map fun path =>
        fs.append path ((ps.filter fun x => mpSelected G p x).map fun x => fmt6 (f.2 x)) := by
    intro f hf
    cases hd : dataPath (p.path root) (name ++ f.1) with
    | none => exact LocalIO.fail _
    | some path =>
      exact LocalIO.append (dataPath_under (by unfold Plain at *; simp [hn, hf]) hd) _
  have aux : ∀ l : List (List Char × (Particle → ℝ)), (∀ f ∈ l, Plain f.1) → LocalIO (p.path root) fun fs =>
      l.foldlM (fun fs f => (dataPath (p.path root) (name ++ f.1)).map fun path =>
        fs.append path ((ps.filter fun x => mpSelected G p x).map fun x => fmt6 (f.2 x))) fs := by
    intro l hl
    induction l with
    | nil => exact LocalIO.id _
    | cons f l ih =>
      have h1 := step f (hl f (by simp))
      have h2 := ih fun g hg => hl g (by simp [hg])
      constructor
      · intro a b hab
        simp only [List.foldlM_cons]
        rcases h1.1 a b hab with ⟨e1, e2⟩ | ⟨a', b', e1, e2, h'⟩
        · left; simp only at e1 e2; rw [e1, e2]; exact ⟨rfl, rfl⟩
        · simp only at e1 e2; rw [e1, e2]; exact h2.1 a' b' h'
      · intro a a' ha
        simp only [List.foldlM_cons] at ha
        rcases e : (dataPath (p.path root) (name ++ f.1)).map fun path =>
          a.append path ((ps.filter fun x => mpSelected G p x).map fun x => fmt6 (f.2 x)) with _ | b
        · rw [e] at ha; cases ha
        · rw [e] at ha
          intro path hp
          rw [h1.2 a b e path hp, h2.2 b a' ha path hp]
  exact aux mpFiles mpFiles_plain


/-- The component of the beam density probes -/
def rhoBeamName : List Char := ['r', 'h', 'o', '_', 'b', 'e', 'a', 'm']

theorem LocalIO.cond {dir : List Char} {c : Prop} [Decidable c] {r : OutFS → Option OutFS} (h : LocalIO dir r) :
    LocalIO dir fun fs => if c then r fs else some fs := by
  by_cases hc : c
  · simpa only [if_pos hc] using h
  · simpa only [if_neg hc] using LocalIO.id dir

theorem dumpWrite_local (G : Geom) (fpf : ℕ) (root : List Char) (S : Snap) (p : ProbeDecl) (n : ℕ) (rho : Grid) :
    ∃ (r : OutFS → Option OutFS) (rho' : Grid), LocalIO (p.path root) r ∧
      (∀ fs, dumpWrite G fpf root S p n fs rho = (r fs).map fun fs => (fs, rho')) ∧
      (p.component ≠ rhoBeamName → ∀ fs q, dumpWrite G fpf root S p n fs q = (r fs).map fun fs => (fs, q)) := by
  unfold dumpWrite
  cases S.arr p.component with
  | some g => exact ⟨_, rho, writeArr_local G.nr G.nz root p _ (dec_plain _) g, fun _ => rfl, fun _ _ _ => rfl⟩
  | none =>
    simp only
    by_cases h1 : p.component = ['r', 'h', 'o', '_', 'b', 'e', 'a', 'm']
    · simp only [if_pos h1]
      exact ⟨_, _, writeArr_local G.nr G.nz root p _ (dec_plain _) _, fun _ => rfl, fun h => absurd h1 h⟩
    simp only [if_neg h1]
    by_cases h2 : p.component = ['T']
    · simp only [if_pos h2]
      exact ⟨fun fs => S.temps.foldlM (fun fs s => if s.1 = p.specie then writeArr G.nr G.nz root p (dec (n / fpf)) s.2 fs
        else some fs) fs, rho, LocalIO.foldlM _ (fun s : List Char × Grid => (writeArr_local G.nr G.nz root p _ (dec_plain _) s.2).cond) _,
        fun _ => rfl, fun _ _ _ => rfl⟩
    simp only [if_neg h2]
    by_cases h3 : p.component = ['d', 'e', 'n', 's', 'i', 't', 'y']
    · simp only [if_pos h3]
      exact ⟨fun fs => S.dens.foldlM (fun fs s => if s.1 = p.specie then writeArr G.nr G.nz root p (dec (n / fpf)) s.2 fs
        else some fs) fs, rho, LocalIO.foldlM _ (fun s : List Char × Grid => (writeArr_local G.nr G.nz root p _ (dec_plain _) s.2).cond) _,
        fun _ => rfl, fun _ _ _ => rfl⟩
    simp only [if_neg h3]
    by_cases h4 : p.kind = .mpframe
    · simp only [if_pos h4]
      exact ⟨fun fs => S.parts.foldlM (fun fs s => if s.1 = p.component then mpWrite G root p (dec n) s.2 fs
        else some fs) fs, rho, LocalIO.foldlM _ (fun s : List Char × List Particle => (mpWrite_local G root p _ (dec_plain _) s.2).cond) _,
        fun _ => rfl, fun _ _ _ => rfl⟩
    simp only [if_neg h4]
    exact ⟨_, rho, LocalIO.id _, fun _ => rfl, fun _ _ _ => rfl⟩

theorem dumpOne_out {G : Geom} {fpf : ℕ} {root : List Char} {t dt : ℝ} {S : Snap} {p : ProbeDecl} {n : ℕ}
    {a : OutFS} {rho : Grid} {x : ℕ × OutFS × Grid} (h : dumpOne G fpf root t dt S p n a rho = some x) :
    AgreeOut (p.path root) a x.2.1 := by
  obtain ⟨r, rho', hl, he, _⟩ := dumpWrite_local G fpf root S p n rho
  unfold dumpOne at h
  split_ifs at h with h1 h2 h3
  · rw [he] at h
    rcases hr : r a with _ | b
    · rw [hr] at h; cases h
    · rw [hr] at h; cases h; exact hl.2 a b hr
  · cases h; exact fun _ _ => rfl

theorem dumpOne_in {G : Geom} {fpf : ℕ} {root : List Char} {t dt : ℝ} {S : Snap} {p : ProbeDecl} {n : ℕ}
    {a b : OutFS} {rho : Grid} (rho2 : Grid) {x : ℕ × OutFS × Grid} (hp : p.component ≠ rhoBeamName)
    (hab : AgreeIn (p.path root) a b)
    (h : dumpOne G fpf root t dt S p n a rho = some x) :
    ∃ b', dumpOne G fpf root t dt S p n b rho2 = some (x.1, b', rho2) ∧ AgreeIn (p.path root) x.2.1 b' := by
  obtain ⟨r, rho', hl, he, hq⟩ := dumpWrite_local G fpf root S p n rho
  unfold dumpOne at h ⊢
  split_ifs at h ⊢ with h1 h2 h3
  · rw [he] at h
    rw [hq hp]
    rcases hl.1 a b hab with ⟨e, _⟩ | ⟨a', b', e1, e2, e3⟩
    · rw [e] at h; cases h
    · rw [e1] at h; cases h
      exact ⟨b', by rw [e2]; rfl, e3⟩
  · cases h; exact ⟨b, rfl, hab⟩

/-- Different probes have different directories. -/
def Separate (root : List Char) (ps : List ProbeDecl) : Prop := ps.Pairwise fun p q => p.path root ≠ q.path root

theorem dumpData_fst {G : Geom} {fpf : ℕ} {root : List Char} {t dt : ℝ} {S : Snap} :
    ∀ {L : List (ProbeDecl × ℕ)} {fs : OutFS} {rho : Grid} {y : List (ProbeDecl × ℕ) × OutFS},
    dumpData G fpf root t dt S L fs rho = some y → y.1.map Prod.fst = L.map Prod.fst := by
  intro L
  induction L with
  | nil => intro fs rho y h; cases h; rfl
  | cons x L ih =>
    intro fs rho y h
    obtain ⟨p, n⟩ := x
    simp only [dumpData] at h
    rcases h1 : dumpOne G fpf root t dt S p n fs rho with _ | x
    · rw [h1] at h; cases h
    rw [h1, Option.bind_some] at h
    rcases h2 : dumpData G fpf root t dt S L x.2.1 x.2.2 with _ | z
    · rw [h2] at h; cases h
    rw [h2] at h; cases h
    simp [ih h2]

theorem dumpData_out {G : Geom} {fpf : ℕ} {root : List Char} {t dt : ℝ} {S : Snap} :
    ∀ {L : List (ProbeDecl × ℕ)} {fs : OutFS} {rho : Grid} {y : List (ProbeDecl × ℕ) × OutFS},
    dumpData G fpf root t dt S L fs rho = some y →
    ∀ path, (∀ x ∈ L, ¬ Under (x.1.path root) path) → fs path = y.2 path := by
  intro L
  induction L with
  | nil => intro fs rho y h path _; cases h; rfl
  | cons x L ih =>
    intro fs rho y h path hp
    obtain ⟨p, n⟩ := x
    simp only [dumpData] at h
    rcases h1 : dumpOne G fpf root t dt S p n fs rho with _ | x
    · rw [h1] at h; cases h
    rw [h1, Option.bind_some] at h
    rcases h2 : dumpData G fpf root t dt S L x.2.1 x.2.2 with _ | z
    · rw [h2] at h; cases h
    rw [h2] at h; cases h
    rw [dumpOne_out h1 path (hp (p, n) (by simp)), ih h2 path fun x hx => hp x (by simp [hx])]

theorem dumpData_in {G : Geom} {fpf : ℕ} {root : List Char} {t dt : ℝ} {S : Snap} :
    ∀ {L : List (ProbeDecl × ℕ)} {fs : OutFS} {rho : Grid} {y : List (ProbeDecl × ℕ) × OutFS},
    Separate root (L.map Prod.fst) →
    dumpData G fpf root t dt S L fs rho = some y →
    ∀ p n, (p, n) ∈ L → p.component ≠ rhoBeamName → ∀ (gs : OutFS) (rho2 : Grid), AgreeIn (p.path root) fs gs →
    ∃ n' gs', dumpData G fpf root t dt S [(p, n)] gs rho2 = some ([(p, n')], gs') ∧ (p, n') ∈ y.1 ∧
      AgreeIn (p.path root) y.2 gs' := by
  intro L
  induction L with
  | nil => intro fs rho y _ _ p n h; simp at h
  | cons x L ih =>
    intro fs rho y hsep h p n hmem hp gs rho2 hag
    obtain ⟨q, m⟩ := x
    simp only [dumpData] at h
    rcases h1 : dumpOne G fpf root t dt S q m fs rho with _ | x
    · rw [h1] at h; cases h
    rw [h1, Option.bind_some] at h
    rcases h2 : dumpData G fpf root t dt S L x.2.1 x.2.2 with _ | z
    · rw [h2] at h; cases h
    rw [h2] at h; cases h
    simp only [Separate, List.map_cons, List.pairwise_cons] at hsep
    rcases List.mem_cons.1 hmem with e | hmem
    · cases e
      obtain ⟨b', hb, hb'⟩ := dumpOne_in rho2 hp hag h1
      refine ⟨x.1, b', by simp [dumpData, hb], by simp, ?_⟩
      intro path hu
      rw [← hb' path hu]
      refine (dumpData_out h2 path ?_).symm
      intro w hw hw'
      exact hsep.1 w.1 (List.mem_map_of_mem hw) (under_disjoint hu hw')
    · have hne : q.path root ≠ p.path root := hsep.1 p (List.mem_map_of_mem (f := Prod.fst) hmem)
      have hag' : AgreeIn (p.path root) x.2.1 gs := by
        intro path hu
        rw [← dumpOne_out h1 path fun h => hne (under_disjoint h hu), hag path hu]
      obtain ⟨n', gs', e1, e2, e3⟩ := ih hsep.2 h2 p n hmem hp gs rho2 hag'
      exact ⟨n', gs', e1, by simp [e2], e3⟩

theorem outputRun_fst {G : Geom} {fpf : ℕ} {root : List Char} {t0 dt : ℝ} {S : ℕ → Snap} {ps : List ProbeDecl}
    {fs0 : OutFS} : ∀ {N : ℕ} {st : List (ProbeDecl × ℕ) × OutFS},
    outputRun G fpf root t0 dt S ps fs0 N = some st → st.1.map Prod.fst = ps := by
  intro N
  induction N with
  | zero => intro st h; cases h; simp [Function.comp_def]
  | succ N ih =>
    intro st h
    simp only [outputRun] at h
    rcases h1 : outputRun G fpf root t0 dt S ps fs0 N with _ | x
    · rw [h1] at h; cases h
    rw [h1, Option.bind_some] at h
    rw [dumpData_fst h, ih h1]

/-- **C61** Probes with different directories do not influence each other: in a run of any number of steps
with any set of such probes, the files of each probe (other than a beam density probe, see C48) and its count
are those of the run in which it is the only probe. -/
theorem C61_independent_partial (G : Geom) (fpf : ℕ) (root : List Char) (t0 dt : ℝ) (S : ℕ → Snap) (ps : List ProbeDecl)
    (fs0 : OutFS) (N : ℕ) (st : List (ProbeDecl × ℕ) × OutFS) (hsep : Separate root ps)
    (h : outputRun G fpf root t0 dt S ps fs0 N = some st) (p : ProbeDecl) (hp : p ∈ ps)
    (hb : p.component ≠ rhoBeamName) :
    ∃ n fs, outputRun G fpf root t0 dt S [p] fs0 N = some ([(p, n)], fs) ∧ (p, n) ∈ st.1 ∧
      ∀ name, Plain name → st.2 (p.path root ++ '/' :: name) = fs (p.path root ++ '/' :: name) := by
  have key : ∀ (N : ℕ) (st : List (ProbeDecl × ℕ) × OutFS), outputRun G fpf root t0 dt S ps fs0 N = some st →
      ∃ n fs, outputRun G fpf root t0 dt S [p] fs0 N = some ([(p, n)], fs) ∧ (p, n) ∈ st.1 ∧
        AgreeIn (p.path root) st.2 fs := by
    intro N
    induction N with
    | zero =>
      intro st h
      cases h
      exact ⟨0, fs0, rfl, by simpa using hp, fun _ _ => rfl⟩
    | succ N ih =>
      intro st h
      simp only [outputRun] at h
      rcases h1 : outputRun G fpf root t0 dt S ps fs0 N with _ | x
      · rw [h1] at h; cases h
      rw [h1, Option.bind_some] at h
      obtain ⟨n, fs, e1, e2, e3⟩ := ih x h1
      obtain ⟨n', fs', f1, f2, f3⟩ := dumpData_in (by rw [outputRun_fst h1]; exact hsep) h p n e2 hb fs (S N).beam e3
      exact ⟨n', fs', by simp only [outputRun, e1, Option.bind_some]; exact f1, f2, f3⟩
  obtain ⟨n, fs, e1, e2, e3⟩ := key N st h
  exact ⟨n, fs, e1, e2, fun name hn => e3 _ ⟨name, hn, rfl⟩⟩

/-! ## The run of one probe of a field component is the run of Probe.lean -/

/-- The files `<number>.dat` in `dir` -/
def dirOf (dir : List Char) (fs : OutFS) : Dir := fun f => fs (dir ++ '/' :: (dec f ++ ['.', 'd', 'a', 't']))

theorem dirOf_append (dir : List Char) (fs : OutFS) (f : ℕ) (l : List ℝ) :
    dirOf dir (fs.append (dir ++ '/' :: (dec f ++ ['.', 'd', 'a', 't'])) l) = (dirOf dir fs).append f l := by
  funext g
  unfold dirOf OutFS.append Dir.append
  by_cases e : g = f
  · subst e; simp
  · rw [Function.update_of_ne e, Function.update_of_ne]
    intro h
    have h1 := List.append_cancel_left h
    have h2 := List.append_cancel_right (List.cons.inj h1).2
    exact e (dec_injective h2)

/-- The array a probe asks for is offered: one of the nine arrays, or the temperature or density of the one
species of the given name (specification). -/
def Offers (S : Snap) (p : ProbeDecl) (g : Grid) : Prop :=
  S.arr p.component = some g ∨
  (S.arr p.component = none ∧ p.component = ['T'] ∧ S.temps.filter (fun s => s.1 = p.specie) = [(p.specie, g)]) ∨
  (S.arr p.component = none ∧ p.component = ['d', 'e', 'n', 's', 'i', 't', 'y'] ∧
    S.dens.filter (fun s => s.1 = p.specie) = [(p.specie, g)])

theorem foldlM_filter {α : Type} (c : α → Prop) [DecidablePred c] (r : OutFS → α → Option OutFS) (l : List α) (fs : OutFS) :
    l.foldlM (fun fs s => if c s then r fs s else some fs) fs = (l.filter fun s => c s).foldlM r fs := by
  induction l generalizing fs with
  | nil => rfl
  | cons x l ih =>
    by_cases h : c x
    · rw [List.filter_cons_of_pos (by simpa using h)]
      simp only [List.foldlM_cons, if_pos h]
      cases r fs x with
      | none => rfl
      | some fs' => exact ih fs'
    · rw [List.filter_cons_of_neg (by simpa using h)]
      simp only [List.foldlM_cons, if_neg h]
      exact ih fs

theorem dumpWrite_offers {G : Geom} {fpf : ℕ} {root : List Char} {S : Snap} {p : ProbeDecl} {g : Grid}
    (h : Offers S p g) (n : ℕ) (fs : OutFS) (rho : Grid) :
    dumpWrite G fpf root S p n fs rho
      = (writeArr G.nr G.nz root p (dec (n / fpf)) g fs).map fun fs => (fs, rho) := by
  unfold dumpWrite
  rcases h with h | ⟨h, hc, hf⟩ | ⟨h, hc, hf⟩
  · rw [h]
  · simp only [h]
    rw [if_neg (by rw [hc]; decide), if_pos hc, foldlM_filter (fun s : List Char × Grid => s.1 = p.specie), hf]
    simp
  · simp only [h]
    rw [if_neg (by rw [hc]; decide), if_neg (by rw [hc]; decide), if_pos hc,
      foldlM_filter (fun s : List Char × Grid => s.1 = p.specie), hf]
    simp

theorem single_run {G : Geom} {fpf : ℕ} {root : List Char} {t0 dt : ℝ} {S : ℕ → Snap} {p : ProbeDecl}
    {k : ProbeKind} (hk : p.kind.plain = some k) (A : ℕ → Grid) (hA : ∀ j, Offers (S j) p (A j))
    {fs0 : OutFS} : ∀ {N n : ℕ} {fs : OutFS}, outputRun G fpf root t0 dt S [p] fs0 N = some ([(p, n)], fs) →
    probeRun G.nr G.nz fpf (p.cfg k) t0 dt A ⟨0, dirOf (p.path root) fs0⟩ N = some ⟨n, dirOf (p.path root) fs⟩ := by
  intro N
  induction N with
  | zero =>
    intro n fs h
    simp only [outputRun, List.map_cons, List.map_nil, Option.some.injEq, Prod.mk.injEq, List.cons.injEq, true_and,
      and_true] at h
    rw [← h.1, ← h.2]; rfl
  | succ N ih =>
    intro n fs h
    simp only [outputRun] at h
    rcases h1 : outputRun G fpf root t0 dt S [p] fs0 N with _ | ⟨L, gs⟩
    · rw [h1] at h; cases h
    have hf := outputRun_fst h1
    obtain ⟨m, rfl⟩ : ∃ m, L = [(p, m)] := by
      rcases L with _ | ⟨⟨q, m⟩, _ | ⟨_, _⟩⟩
      · simp at hf
      · simp at hf; exact ⟨m, by rw [hf]⟩
      · simp at hf
    rw [h1, Option.bind_some] at h
    simp only [dumpData] at h
    have := ih h1
    simp only [probeRun, this, Option.bind_some]
    unfold probeStep
    unfold dumpOne at h
    have hsch : (p.cfg k).schedule = p.schedule := rfl
    rw [hsch]
    split_ifs at h ⊢ with a1 a2 a3
    · cases h
    · cases h
    · rw [dumpWrite_offers (hA N)] at h
      simp only [writeArr, hk] at h
      rcases hd : dataPath (p.path root) (dec (m / fpf)) with _ | path
      · rw [hd] at h; cases h
      rcases hr : readCells G.nr G.nz (A N) (p.cfg k).cells with _ | l
      · rw [hd, Option.bind_some, hr] at h; cases h
      rw [hd, Option.bind_some, hr] at h
      simp only [Option.map_some, Option.bind_some, Option.some.injEq, Prod.mk.injEq, List.cons.injEq, true_and,
        and_true] at h
      have hpath : path = p.path root ++ '/' :: (dec (m / fpf) ++ ['.', 'd', 'a', 't']) := by
        unfold dataPath at hd
        simp only at hd
        split_ifs at hd
        cases hd; rfl
      rw [← h.1, ← h.2, hpath, dirOf_append]
      rfl
    · simp only [Option.map_some, Option.bind_some, Option.some.injEq, Prod.mk.injEq, List.cons.injEq, true_and,
        and_true] at h
      rw [← h.1, ← h.2]


/-- **C61** In a run with any probes in different directories, the files of a probe of an array hold
the windows of this array at the steps given by its schedule, `fpf` to a file, whatever the other probes are. -/
theorem C61_files_partial (G : Geom) (fpf : ℕ) (hfpf : 0 < fpf) (root : List Char) (t0 dt : ℝ) (ht0 : 0 ≤ t0) (hdt : 0 < dt)
    (S : ℕ → Snap) (ps : List ProbeDecl) (fs0 : OutFS) (N : ℕ) (st : List (ProbeDecl × ℕ) × OutFS)
    (hsep : Separate root ps) (h : outputRun G fpf root t0 dt S ps fs0 N = some st) (p : ProbeDecl) (hp : p ∈ ps)
    (hb : p.component ≠ rhoBeamName) (k : ProbeKind) (hk : p.kind.plain = some k) (A : ℕ → Grid)
    (hA : ∀ j, Offers (S j) p (A j)) (hs : 0 < p.schedule) (hin : (p.cfg k).InBounds G.nr G.nz)
    (hempty : ∀ name, fs0 (p.path root ++ '/' :: name) = none) (f : ℕ) :
    st.2 (p.path root ++ '/' :: (dec f ++ ['.', 'd', 'a', 't'])) = fileOf fpf (records (p.cfg k) t0 dt A N) f := by
  obtain ⟨n, fs, e1, _, e3⟩ := C61_independent_partial G fpf root t0 dt S ps fs0 N st hsep h p hp hb
  rw [e3 _ (by unfold Plain; simp [dec_plain])]
  have h0 : dirOf (p.path root) fs0 = fun _ => none := by funext g; exact hempty _
  have h1 := single_run hk A hA e1
  rw [h0] at h1
  obtain ⟨s, h2, _, h3⟩ := C32_probe_files G.nr G.nz fpf hfpf (p.cfg k) hs hin t0 dt ht0 hdt A N
  rw [h1, Option.some.injEq] at h2
  rw [← h3 f, ← h2]
  rfl

/-! ## When the run does not fail -/

theorem foldlM_isSome {α : Type} (r : OutFS → α → Option OutFS) (l : List α) (h : ∀ fs, ∀ x ∈ l, (r fs x).isSome)
    (fs : OutFS) : (l.foldlM r fs).isSome := by
  induction l generalizing fs with
  | nil => rfl
  | cons x l ih =>
    obtain ⟨fs', e⟩ := Option.isSome_iff_exists.1 (h fs x (by simp))
    rw [List.foldlM_cons, e]
    exact ih (fun fs y hy => h fs y (by simp [hy])) fs'

theorem dec_length {n k : ℕ} (hk : 0 < k) (h : n < 10 ^ k) : (dec n).length ≤ k :=
  (Nat.length_toDigits_le_iff (by norm_num) hk).2 h

theorem dataPath_isSome {dir name : List Char} (h : dir.length + name.length + 5 < 100) :
    (dataPath dir name).isSome := by
  unfold dataPath
  simp only
  rw [if_pos (by unfold Fits; simp; omega)]
  rfl

theorem writeArr_isSome {nr nz : ℕ} {root : List Char} {p : ProbeDecl} {name : List Char}
    (hn : (p.path root).length + name.length + 5 < 100) (hin : ∀ k, p.kind.plain = some k → (p.cfg k).InBounds nr nz)
    (g : Grid) (fs : OutFS) : (writeArr nr nz root p name g fs).isSome := by
  unfold writeArr
  cases hk : p.kind.plain with
  | none => rfl
  | some k =>
    obtain ⟨path, e⟩ := Option.isSome_iff_exists.1 (dataPath_isSome hn)
    simp only [e, Option.bind_some, readCells_some ((cells_inBounds _ nr nz).2 (hin k hk)), Option.map_some,
      Option.isSome_some]

theorem mpWrite_isSome {G : Geom} {root : List Char} {p : ProbeDecl} {name : List Char}
    (hn : (p.path root).length + name.length + 13 < 100) (ps : List Particle) (fs : OutFS) :
    (mpWrite G root p name ps fs).isSome := by
  unfold mpWrite
  apply foldlM_isSome
  intro fs f hf
  have hl : f.1.length ≤ 8 := by
    simp only [mpFiles, List.mem_cons, List.not_mem_nil, or_false] at hf
    rcases hf with rfl | rfl | rfl | rfl | rfl <;> simp
  obtain ⟨path, e⟩ := Option.isSome_iff_exists.1
    (dataPath_isSome (dir := p.path root) (name := name ++ f.1) (by simp; omega))
  rw [e]; rfl

/-- A probe of the run is usable for `10 ^ k` records (specification): positive schedule, window in the
array, and room for the file names. -/
def Usable (G : Geom) (root : List Char) (k : ℕ) (p : ProbeDecl) : Prop :=
  0 < p.schedule ∧ (∀ kd, p.kind.plain = some kd → (p.cfg kd).InBounds G.nr G.nz) ∧
    (p.path root).length + k + 13 < 100

theorem dumpOne_isSome {G : Geom} {fpf : ℕ} (hfpf : 0 < fpf) {root : List Char} {t dt : ℝ} {S : Snap}
    {p : ProbeDecl} {n k : ℕ} (hk : 0 < k) (hp : Usable G root k p) (hn : n < 10 ^ k) (fs : OutFS) (rho : Grid) :
    ∃ x, dumpOne G fpf root t dt S p n fs rho = some x ∧ x.1 ≤ n + 1 := by
  obtain ⟨h1, h2, h3⟩ := hp
  have hl := dec_length hk hn
  have hl' : (dec (n / fpf)).length ≤ k := dec_length hk (lt_of_le_of_lt (Nat.div_le_self _ _) hn)
  have hw : ∀ g fs, (writeArr G.nr G.nz root p (dec (n / fpf)) g fs).isSome := fun g fs =>
    writeArr_isSome (by omega) h2 g fs
  have hd : (dumpWrite G fpf root S p n fs rho).isSome := by
    unfold dumpWrite
    cases S.arr p.component with
    | some g => simp [hw]
    | none =>
      simp only
      split_ifs
      · simp [hw]
      · rw [Option.isSome_map]
        apply foldlM_isSome
        intro fs s _
        split_ifs
        · exact hw _ _
        · rfl
      · rw [Option.isSome_map]
        apply foldlM_isSome
        intro fs s _
        split_ifs
        · exact hw _ _
        · rfl
      · rw [Option.isSome_map]
        apply foldlM_isSome
        intro fs s _
        split_ifs
        · exact mpWrite_isSome (by omega) _ _
        · rfl
      · rfl
  obtain ⟨y, hy⟩ := Option.isSome_iff_exists.1 hd
  unfold dumpOne
  rw [if_neg h1.ne']
  split_ifs
  · omega
  · exact ⟨(n + 1, y), by rw [hy]; rfl, le_rfl⟩
  · exact ⟨(n, fs, rho), rfl, Nat.le_succ _⟩

theorem dumpData_isSome {G : Geom} {fpf : ℕ} (hfpf : 0 < fpf) {root : List Char} {t dt : ℝ} {S : Snap} {k : ℕ}
    (hk : 0 < k) {b : ℕ} (hb : b < 10 ^ k) : ∀ (L : List (ProbeDecl × ℕ)) (fs : OutFS) (rho : Grid),
    (∀ x ∈ L, Usable G root k x.1 ∧ x.2 ≤ b) →
    ∃ y, dumpData G fpf root t dt S L fs rho = some y ∧ ∀ x ∈ y.1, x.2 ≤ b + 1 := by
  intro L
  induction L with
  | nil => intro fs rho _; exact ⟨_, rfl, by simp⟩
  | cons x L ih =>
    intro fs rho h
    obtain ⟨p, n⟩ := x
    have h0 := h (p, n) (by simp)
    obtain ⟨z, hz, hz'⟩ := dumpOne_isSome hfpf (t := t) (dt := dt) (S := S) hk h0.1 (lt_of_le_of_lt h0.2 hb) fs rho
    obtain ⟨y, hy, hy'⟩ := ih z.2.1 z.2.2 fun x hx => h x (by simp [hx])
    refine ⟨((p, z.1) :: y.1, y.2), by simp [dumpData, hz, hy], ?_⟩
    intro x hx
    rcases List.mem_cons.1 hx with rfl | hx
    · have := h0.2; simp only at *; omega
    · exact hy' x hx

/-- **C61** A run of up to `10 ^ k` steps with usable probes does not fail. -/
theorem C61_no_fault (G : Geom) (fpf : ℕ) (hfpf : 0 < fpf) (root : List Char) (t0 dt : ℝ) (S : ℕ → Snap)
    (ps : List ProbeDecl) (fs0 : OutFS) (k : ℕ) (hk : 0 < k) (N : ℕ) (hN : N ≤ 10 ^ k)
    (hps : ∀ p ∈ ps, Usable G root k p) : ∃ st, outputRun G fpf root t0 dt S ps fs0 N = some st := by
  have key : ∀ N, N ≤ 10 ^ k → ∃ st, outputRun G fpf root t0 dt S ps fs0 N = some st ∧ ∀ x ∈ st.1, x.2 ≤ N := by
    intro N
    induction N with
    | zero => intro _; exact ⟨_, rfl, by simp⟩
    | succ N ih =>
      intro hN
      obtain ⟨st, h1, h2⟩ := ih (by omega)
      obtain ⟨y, hy, hy'⟩ := dumpData_isSome hfpf (root := root) (t := t0 + N * dt) (dt := dt) (S := S N) hk
        (show N < 10 ^ k by omega) st.1 st.2 (S N).beam fun x hx =>
          ⟨hps x.1 (by rw [← outputRun_fst h1]; exact List.mem_map_of_mem hx), h2 x hx⟩
      exact ⟨y, by simp only [outputRun, h1, Option.bind_some]; exact hy, hy'⟩
  obtain ⟨st, h, _⟩ := key N hN
  exact ⟨st, h⟩


/-- **C61** fails for two probes that differ in the schedule only: they write to the same files, and the
record of the first step is there twice, so the reader takes each later record for another time. -/
theorem C61_schedule_violated (G : Geom) (hG : G.Valid) (fpf : ℕ) (hfpf : 0 < fpf) (root : List Char)
    (hroot : root.length ≤ 60) (dt : ℝ) (S : ℕ → Snap) (A : Grid)
    (hA : (S 0).arr ['E', '_', 'r'] = some A) :
    ∃ p q : ProbeDecl, p.schedule = 5 ∧ q.schedule = 10 ∧ p.component = ['E', '_', 'r'] ∧
      q.component = ['E', '_', 'r'] ∧ p.path root = q.path root ∧
      ∃ st1 st2, outputRun G fpf root 0 dt S [p] (fun _ => none) 1 = some st1 ∧
        st1.2 (p.path root ++ ['/', '0', '.', 'd', 'a', 't']) = some [fmt6 (A 0 0)] ∧
        outputRun G fpf root 0 dt S [p, q] (fun _ => none) 1 = some st2 ∧
        st2.2 (p.path root ++ ['/', '0', '.', 'd', 'a', 't']) = some [fmt6 (A 0 0), fmt6 (A 0 0)] := by
  have hpath : ∀ s : ℤ, ProbeDecl.path root ⟨.dot, ['E', '_', 'r'], noneText, 0, 0, -1, -1, s⟩
      = root ++ ['/', 'E', '_', 'r', '/', 'd', 'o', 't', '_', '0', '_', '0'] := by
    intro s
    simp [ProbeDecl.path, ProbeDecl.resultComponent, ProbeDecl.leaf, fmtInt, dec]
  refine ⟨⟨.dot, ['E', '_', 'r'], noneText, 0, 0, -1, -1, 5⟩, ⟨.dot, ['E', '_', 'r'], noneText, 0, 0, -1, -1, 10⟩,
    rfl, rfl, rfl, rfl, by rw [hpath, hpath], ?_⟩
  have h0 : dec 0 = ['0'] := by simp [dec]
  have hd : dataPath (root ++ ['/', 'E', '_', 'r', '/', 'd', 'o', 't', '_', '0', '_', '0']) ['0']
      = some (root ++ ['/', 'E', '_', 'r', '/', 'd', 'o', 't', '_', '0', '_', '0'] ++ ['/', '0', '.', 'd', 'a', 't']) := by
    unfold dataPath
    simp only
    rw [if_pos (by unfold Fits; simp; omega)]
    simp
  have hin : InGrid G.nr G.nz 0 0 := by
    obtain ⟨h1, h2, _⟩ := hG
    unfold InGrid; omega
  have hread : readCells G.nr G.nz A [(0, 0)] = some [A 0 0] := by
    simp [readCells, hin]
  have ht : truncZ 0 = 0 := by simp [truncZ]
  have hw : ∀ (s : ℤ) (fs : OutFS) (rho : Grid), dumpWrite G fpf root (S 0) ⟨.dot, ['E', '_', 'r'], noneText, 0, 0, -1, -1, s⟩ 0
      fs rho = some (fs.append (root ++ ['/', 'E', '_', 'r', '/', 'd', 'o', 't', '_', '0', '_', '0'] ++
        ['/', '0', '.', 'd', 'a', 't']) [fmt6 (A 0 0)], rho) := by
    intro s fs rho
    rw [dumpWrite_offers (.inl hA)]
    simp only [writeArr, OKind.plain, hpath, Nat.zero_div, h0, hd, Option.bind_some, ProbeDecl.cfg, ProbeCfg.cells,
      hread, Option.map_some, List.map_cons, List.map_nil]
  have hone : ∀ (s : ℤ), s ≠ 0 → ∀ (fs : OutFS) (rho : Grid), dumpOne G fpf root 0 dt (S 0)
      ⟨.dot, ['E', '_', 'r'], noneText, 0, 0, -1, -1, s⟩ 0 fs rho
      = some (1, fs.append (root ++ ['/', 'E', '_', 'r', '/', 'd', 'o', 't', '_', '0', '_', '0'] ++
        ['/', '0', '.', 'd', 'a', 't']) [fmt6 (A 0 0)], rho) := by
    intro s hs fs rho
    unfold dumpOne
    rw [if_neg hs, zero_div, ht, Int.zero_tmod, if_pos rfl, if_neg hfpf.ne', hw]
    rfl
  refine ⟨([(⟨.dot, ['E', '_', 'r'], noneText, 0, 0, -1, -1, 5⟩, 1)],
      OutFS.append (fun _ => none) (root ++ ['/', 'E', '_', 'r', '/', 'd', 'o', 't', '_', '0', '_', '0'] ++
        ['/', '0', '.', 'd', 'a', 't']) [fmt6 (A 0 0)]),
    ([(⟨.dot, ['E', '_', 'r'], noneText, 0, 0, -1, -1, 5⟩, 1), (⟨.dot, ['E', '_', 'r'], noneText, 0, 0, -1, -1, 10⟩, 1)],
      OutFS.append (OutFS.append (fun _ => none) (root ++ ['/', 'E', '_', 'r', '/', 'd', 'o', 't', '_', '0', '_', '0'] ++
        ['/', '0', '.', 'd', 'a', 't']) [fmt6 (A 0 0)]) (root ++ ['/', 'E', '_', 'r', '/', 'd', 'o', 't', '_', '0', '_', '0'] ++
        ['/', '0', '.', 'd', 'a', 't']) [fmt6 (A 0 0)]), ?_, ?_, ?_, ?_⟩
  · simp only [outputRun, List.map_cons, List.map_nil, Option.bind_some, Nat.cast_zero, zero_mul, add_zero, dumpData,
      hone 5 (by norm_num), Option.map_some]
  · rw [hpath]; simp [OutFS.append]
  · simp only [outputRun, List.map_cons, List.map_nil, Option.bind_some, Nat.cast_zero, zero_mul, add_zero, dumpData,
      hone 5 (by norm_num), hone 10 (by norm_num), Option.map_some]
  · rw [hpath]; simp [OutFS.append]


/-! ## C62: buffers -/

/-- **C62** A probe is constructed without overflow of a buffer exactly if its component has at most 9
characters and the path of its directory at most 99. -/
theorem C62_construct (result_path data_root : List Char) (p : ProbeDecl) :
    newProbe result_path data_root p = some (dataRoot result_path data_root) ↔
      p.component.length ≤ 9 ∧ (p.path (dataRoot result_path data_root)).length ≤ 99 := by
  have h1 : (p.path (dataRoot result_path data_root)).length
      = (dataRoot result_path data_root).length + p.resultComponent.length + p.leaf.length + 2 := by
    simp [ProbeDecl.path]; omega
  have h2 : p.specie.length ≤ p.resultComponent.length ∨ p.specie.length = 4 := by
    unfold ProbeDecl.resultComponent
    split_ifs with h
    · right; rw [h]; rfl
    · left; simp; omega
  unfold newProbe Fits
  simp only
  constructor
  · intro h
    split_ifs at h with hc
    omega
  · rintro ⟨h3, h4⟩
    rw [if_pos]
    omega

/-- otherwise it overflows -/
theorem newProbe_none (result_path data_root : List Char) (p : ProbeDecl)
    (h : 9 < p.component.length ∨ 99 < (p.path (dataRoot result_path data_root)).length) :
    newProbe result_path data_root p = none := by
  have h1 := C62_construct result_path data_root p
  cases e : newProbe result_path data_root p with
  | none => rfl
  | some r =>
    have : r = dataRoot result_path data_root := by
      unfold newProbe at e
      simp only at e
      split_ifs at e
      cases e; rfl
    rw [this] at e
    have := h1.1 e
    omega

/-- Number of characters of a number below `10 ^ d` -/
theorem fmtInt_length {n : ℤ} {d : ℕ} (hd : 0 < d) (h0 : 0 ≤ n) (h : n < 10 ^ d) : (fmtInt n).length ≤ d := by
  unfold fmtInt
  rw [if_neg (by omega)]
  apply dec_length hd
  zify
  rwa [abs_of_nonneg h0]

/-- a coordinate of a probe: `-1` or four digits -/
theorem fmtInt_four {n : ℤ} (h0 : -1 ≤ n) (h : n < 10 ^ 4) : (fmtInt n).length ≤ 4 := by
  rcases lt_or_ge n 0 with h' | h'
  · have : n = -1 := by omega
    subst this; decide
  · exact fmtInt_length (by norm_num) h' h

/-- **C62** With a root directory of at most 29 characters, components and species of at most 9 characters and
a grid below 10000 nodes, a probe is constructed, and file names fit for a billion records. -/
theorem C62_typical (G : Geom) (result_path data_root : List Char) (p : ProbeDecl)
    (hroot : (dataRoot result_path data_root).length ≤ 29) (hc : p.component.length ≤ 9) (hs : p.specie.length ≤ 9)
    (h1 : -1 ≤ p.start_r ∧ p.start_r < 10 ^ 4) (h2 : -1 ≤ p.start_z ∧ p.start_z < 10 ^ 4)
    (h3 : -1 ≤ p.end_r ∧ p.end_r < 10 ^ 4) (h4 : -1 ≤ p.end_z ∧ p.end_z < 10 ^ 4) (hsch : 0 < p.schedule)
    (hin : ∀ kd, p.kind.plain = some kd → (p.cfg kd).InBounds G.nr G.nz) :
    newProbe result_path data_root p = some (dataRoot result_path data_root) ∧
      Usable G (dataRoot result_path data_root) 9 p := by
  have a1 := fmtInt_four h1.1 h1.2
  have a2 := fmtInt_four h2.1 h2.2
  have a3 := fmtInt_four h3.1 h3.2
  have a4 := fmtInt_four h4.1 h4.2
  have hleaf : p.leaf.length ≤ 27 := by
    unfold ProbeDecl.leaf
    cases p.kind <;> simp <;> omega
  have hrc : p.resultComponent.length ≤ 19 := by
    unfold ProbeDecl.resultComponent
    split_ifs
    · omega
    · simp; omega
  have hpath : (p.path (dataRoot result_path data_root)).length ≤ 77 := by
    unfold ProbeDecl.path
    simp; omega
  exact ⟨(C62_construct _ _ _).2 ⟨hc, by omega⟩, hsch, hin, by omega⟩

/-- **C62** fails for a macroparticle probe of a species with a name of ten or more characters: constructing
it overflows a buffer, wherever the results go. -/
theorem C62_component_violated (result_path data_root : List Char) (r0 z0 r1 z1 sch : ℤ) :
    newProbe result_path data_root ⟨.mpframe, ['e', 'l', 'e', 'c', 't', 'r', 'o', 'n', 's', '2'], noneText, r0, z0, r1,
      z1, sch⟩ = none :=
  newProbe_none _ _ _ (.inl (by simp))

/-- **C62** fails for long result paths: if the path of the directory has 94 to 99 characters, the probe is
constructed, but its first record overflows the buffer of the file name. -/
theorem C62_late_violated (G : Geom) (fpf : ℕ) (result_path data_root : List Char) (p : ProbeDecl) (dt : ℝ)
    (S : ℕ → Snap) (g : Grid) (hg : Offers (S 0) p g) (k : ProbeKind) (hk : p.kind.plain = some k)
    (hc : p.component.length ≤ 9) (h1 : 94 ≤ (p.path (dataRoot result_path data_root)).length)
    (h2 : (p.path (dataRoot result_path data_root)).length ≤ 99) (fs0 : OutFS) :
    newProbe result_path data_root p = some (dataRoot result_path data_root) ∧
      outputRun G fpf (dataRoot result_path data_root) 0 dt S [p] fs0 1 = none := by
  refine ⟨(C62_construct _ _ _).2 ⟨hc, h2⟩, ?_⟩
  have h0 : dec 0 = ['0'] := by simp [dec]
  have ht : truncZ 0 = 0 := by simp [truncZ]
  have hd : dataPath (p.path (dataRoot result_path data_root)) ['0'] = none := by
    unfold dataPath
    simp only
    rw [if_neg (by unfold Fits; simp; omega)]
  have hone : dumpOne G fpf (dataRoot result_path data_root) 0 dt (S 0) p 0 fs0 (S 0).beam = none := by
    unfold dumpOne
    rw [zero_div, ht, Int.zero_tmod, if_pos rfl, dumpWrite_offers hg]
    simp only [writeArr, hk, Nat.zero_div, h0, hd, Option.bind_none, Option.map_none]
    split_ifs <;> rfl
  simp only [outputRun, List.map_cons, List.map_nil, Option.bind_some, Nat.cast_zero, zero_mul, add_zero, dumpData,
    hone, Option.bind_none]

/-- Not vacuous: the probes of parameters.xml.in with the default root `./pdp3_result`. -/
example : newProbe ['.'] "pdp3_result".toList ⟨.col, "E_r".toList, noneText, 0, 100, 100, -1, 50⟩ ≠ none ∧
    newProbe ['.'] "pdp3_result".toList ⟨.mpframe, "electrons".toList, noneText, 0, 0, 10, 20, 5⟩ ≠ none := by
  constructor <;> rw [(C62_construct _ _ _).2 (by decide)] <;> simp

/-! ## C63: macroparticle probes -/

/-- The particle is in the cells `start .. end` of the probe, the last ones included (specification). -/
def InMpWindow (G : Geom) (p : ProbeDecl) (x : Particle) : Prop :=
  (p.start_r * G.dr < x.pos.c0 ∧ x.pos.c0 ≤ (p.end_r + 1) * G.dr) ∧
  (p.start_z * G.dz < x.pos.c2 ∧ x.pos.c2 ≤ (p.end_z + 1) * G.dz)

theorem u32_window {x dx : ℝ} (hdx : 0 < dx) (h0 : 0 ≤ x) (h1 : x ≤ 2 ^ 31 * dx) {a b : ℤ} (ha : 0 ≤ a) (hb : 0 ≤ b)
    (ha' : a < 2 ^ 31) (hb' : b < 2 ^ 31) :
    (u32 a ≤ u32 (CELL_NUMBER x dx) ∧ u32 (CELL_NUMBER x dx) ≤ u32 b) ↔ (a * dx < x ∧ x ≤ (b + 1) * dx) := by
  obtain ⟨s1, s2⟩ := CELL_NUMBER_spec (x := x) hdx
  rw [u32_of_range ha (by omega), u32_of_range hb (by omega)]
  generalize hc : CELL_NUMBER x dx = c at s1 s2
  have c1 : -1 ≤ c := by
    have : (0 : ℝ) ≤ ((c : ℝ) + 1) * dx := h0.trans s2
    have : (0 : ℝ) ≤ (c : ℝ) + 1 := nonneg_of_mul_nonneg_left this hdx
    exact_mod_cast (by linarith : (-1 : ℝ) ≤ c)
  have c2 : c < 2 ^ 31 := by
    have : (c : ℝ) * dx < 2 ^ 31 * dx := lt_of_lt_of_le s1 h1
    exact_mod_cast lt_of_mul_lt_mul_right this hdx.le
  rcases eq_or_lt_of_le c1 with e | h
  · have : u32 c = 2 ^ 32 - 1 := by rw [← e]; rfl
    rw [this]
    constructor
    · intro h; omega
    · rintro ⟨h, _⟩
      rw [← e] at s2
      have : (a : ℝ) * dx < 0 := by push_cast at s2; linarith
      have : (0 : ℝ) ≤ a * dx := mul_nonneg (by exact_mod_cast ha) hdx.le
      linarith
  · rw [u32_of_range (by omega) (by omega)]
    constructor
    · rintro ⟨h1, h2⟩
      have h1' : (a : ℝ) ≤ c := by exact_mod_cast h1
      have h2' : (c : ℝ) ≤ b := by exact_mod_cast h2
      constructor <;> nlinarith
    · rintro ⟨h1, h2⟩
      have h3 : (a : ℝ) * dx < (c + 1) * dx := lt_of_lt_of_le h1 s2
      have h4 : (c : ℝ) * dx < (b + 1) * dx := lt_of_lt_of_le s1 h2
      have h3' := lt_of_mul_lt_mul_right h3 hdx.le
      have h4' := lt_of_mul_lt_mul_right h4 hdx.le
      constructor
      · have : a < c + 1 := by exact_mod_cast h3'
        omega
      · have : c < b + 1 := by exact_mod_cast h4'
        omega

theorem mpSelected_iff {G : Geom} (hG : G.Valid) {p : ProbeDecl} {x : Particle}
    (hw : (0 ≤ p.start_r ∧ p.start_r < 2 ^ 31) ∧ (0 ≤ p.end_r ∧ p.end_r < 2 ^ 31) ∧
      (0 ≤ p.start_z ∧ p.start_z < 2 ^ 31) ∧ (0 ≤ p.end_z ∧ p.end_z < 2 ^ 31))
    (hx : (0 ≤ x.pos.c0 ∧ x.pos.c0 ≤ 2 ^ 31 * G.dr) ∧ (0 ≤ x.pos.c2 ∧ x.pos.c2 ≤ 2 ^ 31 * G.dz)) :
    mpSelected G p x ↔ InMpWindow G p x := by
  unfold mpSelected InMpWindow
  rw [← u32_window hG.dr_pos hx.1.1 hx.1.2 hw.1.1 hw.2.1.1 hw.1.2 hw.2.1.2,
    ← u32_window hG.dz_pos hx.2.1 hx.2.2 hw.2.2.1.1 hw.2.2.2.1 hw.2.2.1.2 hw.2.2.2.2]
  tauto

/-- The names of the files of macroparticle probes are different. -/
theorem mpName_injective {m n : ℕ} {f g : List Char × (Particle → ℝ)} (hf : f ∈ mpFiles) (hg : g ∈ mpFiles)
    (h : dec m ++ f.1 = dec n ++ g.1) : m = n ∧ f = g := by
  have tw : ∀ (k : ℕ) (t : List Char), (dec k ++ '_' :: t).takeWhile Char.isDigit = dec k := by
    intro k t
    rw [List.takeWhile_append_of_pos (dec_digits k)]
    simp
  have hu : ∀ f ∈ mpFiles, ∃ t, f.1 = '_' :: t := by
    intro f hf
    simp only [mpFiles, List.mem_cons, List.not_mem_nil, or_false] at hf
    rcases hf with rfl | rfl | rfl | rfl | rfl <;> exact ⟨_, rfl⟩
  obtain ⟨t, ht⟩ := hu f hf
  obtain ⟨t', ht'⟩ := hu g hg
  have h1 : dec m = dec n := by
    have := congrArg (List.takeWhile Char.isDigit) h
    rw [ht, ht', tw, tw] at this
    exact this
  have h2 : f.1 = g.1 := by rw [h1] at h; exact List.append_cancel_left h
  refine ⟨dec_injective h1, ?_⟩
  simp only [mpFiles, List.mem_cons, List.not_mem_nil, or_false] at hf hg
  rcases hf with rfl | rfl | rfl | rfl | rfl <;> rcases hg with rfl | rfl | rfl | rfl | rfl <;>
    first | rfl | (exfalso; revert h2; decide)


/-- file `suffix` of record `m` of a macroparticle probe -/
def mpPath (root : List Char) (p : ProbeDecl) (m : ℕ) (suffix : List Char) : List Char :=
  p.path root ++ '/' :: (dec m ++ suffix ++ ['.', 'd', 'a', 't'])

theorem mpPath_injective {root : List Char} {p : ProbeDecl} {m n : ℕ} {f g : List Char × (Particle → ℝ)}
    (hf : f ∈ mpFiles) (hg : g ∈ mpFiles) (h : mpPath root p m f.1 = mpPath root p n g.1) : m = n ∧ f = g := by
  unfold mpPath at h
  have h1 := (List.cons.inj (List.append_cancel_left h)).2
  exact mpName_injective hf hg (List.append_cancel_right h1)

theorem dataPath_eq {dir name path : List Char} (h : dataPath dir name = some path) :
    path = dir ++ '/' :: (name ++ ['.', 'd', 'a', 't']) := by
  unfold dataPath at h
  simp only at h
  split_ifs at h
  cases h; rfl

theorem mpWrite_effect {root : List Char} {p : ProbeDecl} {n : ℕ} (v : (Particle → ℝ) → List ℝ) :
    ∀ (l : List (List Char × (Particle → ℝ))), (∀ f ∈ l, f ∈ mpFiles) → l.Nodup → ∀ {fs fs' : OutFS},
    l.foldlM (fun fs f => (dataPath (p.path root) (dec n ++ f.1)).map fun path => fs.append path (v f.2)) fs = some fs' →
    ∀ f ∈ mpFiles, ∀ m, (m = n ∧ f ∈ l →
        fs' (mpPath root p m f.1) = some ((fs (mpPath root p m f.1)).getD [] ++ v f.2)) ∧
      (¬ (m = n ∧ f ∈ l) → fs' (mpPath root p m f.1) = fs (mpPath root p m f.1)) := by
  intro l
  induction l with
  | nil => intro _ _ fs fs' h f _ m; cases h; simp
  | cons g l ih =>
    intro hl hn fs fs' h f hf m
    simp only [List.foldlM_cons] at h
    rcases hd : dataPath (p.path root) (dec n ++ g.1) with _ | path
    · rw [hd] at h; cases h
    rw [hd] at h
    have hp : path = mpPath root p n g.1 := dataPath_eq hd
    have hg : g ∈ mpFiles := hl g (by simp)
    have hn' := List.nodup_cons.1 hn
    obtain ⟨i1, i2⟩ := ih (fun f hf => hl f (by simp [hf])) hn'.2 h f hf m
    by_cases hgf : m = n ∧ f = g
    · obtain ⟨rfl, rfl⟩ := hgf
      constructor
      · intro _
        rw [i2 (fun h => hn'.1 h.2), hp]
        simp [OutFS.append]
      · intro h; exact absurd ⟨rfl, by simp⟩ h
    · have hne : mpPath root p m f.1 ≠ path := by
        rw [hp]; intro h; exact hgf (mpPath_injective hf hg h)
      have happ : (fs.append path (v g.2)) (mpPath root p m f.1) = fs (mpPath root p m f.1) := by
        unfold OutFS.append; rw [Function.update_of_ne hne]
      constructor
      · rintro ⟨rfl, hm⟩
        rcases List.mem_cons.1 hm with rfl | hm
        · exact absurd ⟨rfl, rfl⟩ hgf
        · rw [i1 ⟨rfl, hm⟩]
          beta_reduce
          rw [happ]
      · intro hm
        rw [i2 (fun h => hm ⟨h.1, by simp [h.2]⟩)]
        beta_reduce
        rw [happ]

theorem mpFiles_nodup : mpFiles.Nodup := by
  have h : (mpFiles.map Prod.fst).Nodup := by decide
  exact List.Nodup.of_map _ h

/-- The names that `dump_data` tests before it looks for a macroparticle probe, apart from the nine arrays -/
def reserved : List (List Char) := [rhoBeamName, ['T'], ['d', 'e', 'n', 's', 'i', 't', 'y']]

theorem mp_files (G : Geom) (fpf : ℕ) (root : List Char) (t0 dt : ℝ) (ht0 : 0 ≤ t0)
    (hdt : 0 < dt) (S : ℕ → Snap) (ps : List ProbeDecl) (fs0 : OutFS) (N : ℕ) (st : List (ProbeDecl × ℕ) × OutFS)
    (hsep : Separate root ps) (h : outputRun G fpf root t0 dt S ps fs0 N = some st) (p : ProbeDecl) (hp : p ∈ ps)
    (hk : p.kind = .mpframe) (hr : p.component ∉ reserved) (harr : ∀ j, (S j).arr p.component = none)
    (P : ℕ → List Particle) (hP : ∀ j, (S j).parts.filter (fun s => s.1 = p.component) = [(p.component, P j)])
    (hempty : ∀ name, fs0 (p.path root ++ '/' :: name) = none) (m : ℕ) :
    ∀ f ∈ mpFiles, st.2 (p.path root ++ '/' :: (dec m ++ f.1 ++ ['.', 'd', 'a', 't'])) =
      ((firingSteps (p.cfg .frame) t0 dt N)[m]?).map fun j =>
        (open Classical in (P j).filter fun x => mpSelected G p x).map fun x => fmt6 (f.2 x) := by
  classical
  have hb : p.component ≠ rhoBeamName := fun e => hr (by simp [reserved, e])
  obtain ⟨n, fs, e1, _, e3⟩ := C61_independent_partial G fpf root t0 dt S ps fs0 N st hsep h p hp hb
  have key : ∀ (N n : ℕ) (fs : OutFS), outputRun G fpf root t0 dt S [p] fs0 N = some ([(p, n)], fs) →
      n = (firingSteps (p.cfg .frame) t0 dt N).length ∧ ∀ f ∈ mpFiles, ∀ m, fs (mpPath root p m f.1) =
        ((firingSteps (p.cfg .frame) t0 dt N)[m]?).map fun j =>
          ((P j).filter fun x => mpSelected G p x).map fun x => fmt6 (f.2 x) := by
    intro N
    induction N with
    | zero =>
      intro n fs h
      simp only [outputRun, List.map_cons, List.map_nil, Option.some.injEq, Prod.mk.injEq, List.cons.injEq, true_and,
        and_true] at h
      rw [← h.1, ← h.2]
      refine ⟨by simp [firingSteps], ?_⟩
      intro f hf m
      rw [show fs0 (mpPath root p m f.1) = none from hempty _]
      simp [firingSteps]
    | succ N ih =>
      intro n fs h
      simp only [outputRun] at h
      rcases h1 : outputRun G fpf root t0 dt S [p] fs0 N with _ | ⟨L, gs⟩
      · rw [h1] at h; cases h
      have hfst := outputRun_fst h1
      obtain ⟨c, rfl⟩ : ∃ m, L = [(p, m)] := by
        rcases L with _ | ⟨⟨q, m⟩, _ | ⟨_, _⟩⟩
        · simp at hfst
        · simp at hfst; exact ⟨m, by rw [hfst]⟩
        · simp at hfst
      rw [h1, Option.bind_some] at h
      simp only [dumpData] at h
      obtain ⟨ih1, ih2⟩ := ih c gs h1
      have htr : truncZ ((t0 + N * dt) / dt) = ⌊t0 / dt⌋ + N := by
        rw [truncZ_nonneg (by positivity)]
        have : (t0 + N * dt) / dt = t0 / dt + N := by field_simp
        rw [this, Int.floor_add_natCast]
      have hfs : firingSteps (p.cfg .frame) t0 dt (N + 1) = firingSteps (p.cfg .frame) t0 dt N ++
          (if p.schedule ∣ ⌊t0 / dt⌋ + N then [N] else []) := by
        unfold firingSteps
        rw [List.range_succ, List.filter_append]
        congr 1
        by_cases hd : p.schedule ∣ ⌊t0 / dt⌋ + N
        · simp [hd, ProbeDecl.cfg]
        · simp [hd, ProbeDecl.cfg]
      rw [hfs]
      unfold dumpOne at h
      rw [htr] at h
      by_cases hs : p.schedule = 0
      · rw [if_pos hs] at h; cases h
      rw [if_neg hs] at h
      by_cases hd : p.schedule ∣ ⌊t0 / dt⌋ + N
      · rw [if_pos (Int.tmod_eq_zero_of_dvd hd)] at h
        rw [if_pos hd]
        by_cases hfpf : fpf = 0
        · rw [if_pos hfpf] at h; cases h
        rw [if_neg hfpf] at h
        unfold dumpWrite at h
        simp only [reserved, rhoBeamName, List.mem_cons, List.not_mem_nil, or_false, not_or] at hr
        simp only [harr N] at h
        rw [if_neg hr.1, if_neg hr.2.1, if_neg hr.2.2, if_pos hk,
          foldlM_filter (fun s : List Char × List Particle => s.1 = p.component), hP N] at h
        simp only [List.foldlM_cons, List.foldlM_nil, Option.bind_eq_bind, Option.pure_def, Option.bind_some, Option.bind_fun_some] at h
        rcases hm : mpWrite G root p (dec c) (P N) gs with _ | fs'
        · rw [hm] at h; cases h
        rw [hm] at h
        simp only [Option.map_some, Option.bind_some, Option.some.injEq, Prod.mk.injEq, List.cons.injEq, true_and,
          and_true] at h
        obtain ⟨rfl, rfl⟩ := h
        refine ⟨by simp [ih1], ?_⟩
        intro f hf m
        unfold mpWrite at hm
        obtain ⟨j1, j2⟩ := mpWrite_effect (v := fun g => ((P N).filter fun x => mpSelected G p x).map fun x => fmt6 (g x))
          mpFiles (fun _ h => h) mpFiles_nodup (by convert hm) f hf m
        by_cases hmc : m = c
        · subst hmc
          rw [j1 ⟨rfl, hf⟩, ih2 f hf, ih1]
          simp
        · rw [j2 (fun h => hmc h.1), ih2 f hf]
          congr 1
          rw [List.getElem?_append]
          split_ifs with hlt
          · rfl
          · rw [List.getElem?_eq_none (by omega), List.getElem?_eq_none (by simp; omega)]
      · rw [if_neg (fun h => hd (Int.dvd_of_tmod_eq_zero h))] at h
        rw [if_neg hd, List.append_nil]
        simp only [Option.map_some, Option.bind_some, Option.some.injEq, Prod.mk.injEq, List.cons.injEq, true_and,
          and_true] at h
        obtain ⟨rfl, rfl⟩ := h
        exact ⟨ih1, ih2⟩
  intro f hf
  have hpl : Plain (dec m ++ f.1 ++ ['.', 'd', 'a', 't']) := by
    have := mpFiles_plain f hf
    unfold Plain at *
    simp [this, dec_plain]
  rw [e3 _ hpl]
  exact (key N n fs e1).2 f hf m


/-- **C63 (partial)** The five files of record `m` of a macroparticle probe hold, in the same order, the
velocities and positions of the particles of its species that are in the cells `start .. end` at the
`m`-th step given by the schedule.  Partial: the end is included (see `C63_end_violated`), dead particles are
written as well (`C63_dead_violated`), and the limits have to be non-negative (`C63_negative_violated`). -/
theorem C63_files_partial (G : Geom) (hG : G.Valid) (fpf : ℕ) (root : List Char) (t0 dt : ℝ) (ht0 : 0 ≤ t0)
    (hdt : 0 < dt) (S : ℕ → Snap) (ps : List ProbeDecl) (fs0 : OutFS) (N : ℕ) (st : List (ProbeDecl × ℕ) × OutFS)
    (hsep : Separate root ps) (h : outputRun G fpf root t0 dt S ps fs0 N = some st) (p : ProbeDecl) (hp : p ∈ ps)
    (hk : p.kind = .mpframe) (hr : p.component ∉ reserved) (harr : ∀ j, (S j).arr p.component = none)
    (P : ℕ → List Particle) (hP : ∀ j, (S j).parts.filter (fun s => s.1 = p.component) = [(p.component, P j)])
    (hw : (0 ≤ p.start_r ∧ p.start_r < 2 ^ 31) ∧ (0 ≤ p.end_r ∧ p.end_r < 2 ^ 31) ∧
      (0 ≤ p.start_z ∧ p.start_z < 2 ^ 31) ∧ (0 ≤ p.end_z ∧ p.end_z < 2 ^ 31))
    (hx : ∀ j, ∀ x ∈ P j, (0 ≤ x.pos.c0 ∧ x.pos.c0 ≤ 2 ^ 31 * G.dr) ∧ (0 ≤ x.pos.c2 ∧ x.pos.c2 ≤ 2 ^ 31 * G.dz))
    (hempty : ∀ name, fs0 (p.path root ++ '/' :: name) = none) (m : ℕ) :
    ∀ f ∈ mpFiles, st.2 (p.path root ++ '/' :: (dec m ++ f.1 ++ ['.', 'd', 'a', 't'])) =
      ((firingSteps (p.cfg .frame) t0 dt N)[m]?).map fun j =>
        (open Classical in (P j).filter fun x => InMpWindow G p x).map fun x => fmt6 (f.2 x) := by
  classical
  intro f hf
  rw [mp_files G fpf root t0 dt ht0 hdt S ps fs0 N st hsep h p hp hk hr harr P hP hempty m f hf]
  congr 1
  funext j
  congr 1
  apply List.filter_congr
  intro x hxx
  exact decide_eq_decide.2 (mpSelected_iff hG hw (hx j x hxx))

/-- The first record of a macroparticle probe that is alone -/
theorem mp_first (G : Geom) (fpf : ℕ) (hfpf : 0 < fpf) (root : List Char) (dt : ℝ) (hdt : 0 < dt) (S : ℕ → Snap)
    (p : ProbeDecl) (hroot : (p.path root).length ≤ 85) (hk : p.kind = .mpframe) (hr : p.component ∉ reserved)
    (hs : 0 < p.schedule) (harr : ∀ j, (S j).arr p.component = none) (P : ℕ → List Particle)
    (hP : ∀ j, (S j).parts.filter (fun s => s.1 = p.component) = [(p.component, P j)]) :
    ∃ st, outputRun G fpf root 0 dt S [p] (fun _ => none) 1 = some st ∧ ∀ f ∈ mpFiles,
      st.2 (p.path root ++ '/' :: (['0'] ++ f.1 ++ ['.', 'd', 'a', 't'])) =
        some ((open Classical in (P 0).filter fun x => mpSelected G p x).map fun x => fmt6 (f.2 x)) := by
  obtain ⟨st, h⟩ := C61_no_fault G fpf hfpf root 0 dt S [p] (fun _ => none) 1 (by norm_num) 1 (by norm_num)
    (by
      intro q hq
      rw [List.mem_singleton] at hq
      subst hq
      refine ⟨hs, ?_, by omega⟩
      intro kd hkd
      rw [hk] at hkd
      cases hkd)
  refine ⟨st, h, ?_⟩
  intro f hf
  have := mp_files G fpf root 0 dt le_rfl hdt S [p] _ 1 st (List.pairwise_singleton _ _) h p (by simp) hk hr harr P hP
    (fun _ => rfl) 0 f hf
  have h0 : dec 0 = ['0'] := by simp [dec]
  rw [h0] at this
  rw [this]
  simp [firingSteps]

/-- **C63** fails: the cell `end` is part of the window, unlike for the frames of arrays.  With the window
`0:0 – 1:1` a particle in the middle of cell `(1, 1)` is written. -/
theorem C63_end_violated (G : Geom) (hG : G.Valid) (fpf : ℕ) (hfpf : 0 < fpf) (dt : ℝ) (hdt : 0 < dt)
    (S : ℕ → Snap) (x : Particle) (hx : x.pos.c0 = 1.5 * G.dr ∧ x.pos.c2 = 1.5 * G.dz)
    (harr : ∀ j, (S j).arr ['e'] = none) (hP : ∀ j, (S j).parts = [(['e'], [x])]) :
    ∃ st, outputRun G fpf ['d'] 0 dt S [⟨.mpframe, ['e'], noneText, 0, 0, 1, 1, 1⟩] (fun _ => none) 1 = some st ∧
      st.2 "d/e/mpframe_0:0_1:1/0_pos_r.dat".toList = some [fmt6 (1.5 * G.dr)] := by
  obtain ⟨st, h1, h2⟩ := mp_first G fpf hfpf ['d'] dt hdt S ⟨.mpframe, ['e'], noneText, 0, 0, 1, 1, 1⟩ (by decide) rfl
    (by decide) (by norm_num) harr (fun _ => [x]) (fun j => by simp [hP j])
  refine ⟨st, h1, ?_⟩
  have hsel : mpSelected G ⟨.mpframe, ['e'], noneText, 0, 0, 1, 1, 1⟩ x := by
    have c1 : CELL_NUMBER (1.5 * G.dr) G.dr = 1 := CELL_NUMBER_unique hG.dr_pos 1
      (by have := hG.dr_pos; norm_num; linarith) (by have := hG.dr_pos; norm_num; linarith)
    have c2 : CELL_NUMBER (1.5 * G.dz) G.dz = 1 := CELL_NUMBER_unique hG.dz_pos 1
      (by have := hG.dz_pos; norm_num; linarith) (by have := hG.dz_pos; norm_num; linarith)
    unfold mpSelected
    rw [hx.1, hx.2, c1, c2]
    decide
  have := h2 (['_', 'p', 'o', 's', '_', 'r'], fun x => x.pos.c0) (by simp [mpFiles])
  rw [show "d/e/mpframe_0:0_1:1/0_pos_r.dat".toList = ProbeDecl.path ['d'] ⟨.mpframe, ['e'], noneText, 0, 0, 1, 1, 1⟩ ++
    '/' :: (['0'] ++ ['_', 'p', 'o', 's', '_', 'r'] ++ ['.', 'd', 'a', 't']) by decide]
  rw [this]
  simp [hsel, hx.1]

/-- **C63** fails: dead particles are written like live ones. -/
theorem C63_dead_violated (G : Geom) (fpf : ℕ) (hfpf : 0 < fpf) (root : List Char) (dt : ℝ) (hdt : 0 < dt)
    (S : ℕ → Snap) (p : ProbeDecl) (hroot : (p.path root).length ≤ 85) (hk : p.kind = .mpframe)
    (hr : p.component ∉ reserved) (hs : 0 < p.schedule) (harr : ∀ j, (S j).arr p.component = none) (x : Particle)
    (hdead : x.alive = false) (hx : mpSelected G p x) (hP : ∀ j, (S j).parts = [(p.component, [x])]) :
    ∃ st, outputRun G fpf root 0 dt S [p] (fun _ => none) 1 = some st ∧
      st.2 (p.path root ++ "/0_pos_r.dat".toList) = some [fmt6 x.pos.c0] := by
  have _ := hdead
  obtain ⟨st, h1, h2⟩ := mp_first G fpf hfpf root dt hdt S p hroot hk hr hs harr (fun _ => [x]) (fun j => by simp [hP j])
  refine ⟨st, h1, ?_⟩
  have := h2 (['_', 'p', 'o', 's', '_', 'r'], fun x => x.pos.c0) (by simp [mpFiles])
  rw [show "/0_pos_r.dat".toList = '/' :: (['0'] ++ ['_', 'p', 'o', 's', '_', 'r'] ++ ['.', 'd', 'a', 't']) by decide, this]
  simp [hx]

/-- **C63** fails for a negative start: it is compared as an unsigned number, and no particle at all is
written, although every cell number is larger. -/
theorem C63_negative_violated (G : Geom) (fpf : ℕ) (hfpf : 0 < fpf) (root : List Char) (dt : ℝ) (hdt : 0 < dt)
    (S : ℕ → Snap) (p : ProbeDecl) (hroot : (p.path root).length ≤ 85) (hk : p.kind = .mpframe)
    (hr : p.component ∉ reserved) (hs : 0 < p.schedule) (harr : ∀ j, (S j).arr p.component = none)
    (hneg : p.start_r = -1) (hend : 0 ≤ p.end_r ∧ p.end_r < 2 ^ 31) (P : List Particle)
    (hP : ∀ j, (S j).parts = [(p.component, P)]) :
    ∃ st, outputRun G fpf root 0 dt S [p] (fun _ => none) 1 = some st ∧
      st.2 (p.path root ++ "/0_pos_r.dat".toList) = some [] := by
  obtain ⟨st, h1, h2⟩ := mp_first G fpf hfpf root dt hdt S p hroot hk hr hs harr (fun _ => P) (fun j => by simp [hP j])
  refine ⟨st, h1, ?_⟩
  have := h2 (['_', 'p', 'o', 's', '_', 'r'], fun x => x.pos.c0) (by simp [mpFiles])
  rw [show "/0_pos_r.dat".toList = '/' :: (['0'] ++ ['_', 'p', 'o', 's', '_', 'r'] ++ ['.', 'd', 'a', 't']) by decide, this]
  have hsel : ∀ x, ¬ mpSelected G p x := by
    rintro x ⟨a, b, _⟩
    rw [hneg] at a
    rw [u32_of_range hend.1 (by omega)] at b
    have : u32 (-1) = 2 ^ 32 - 1 := rfl
    omega
  simp [hsel]

/-! ## C64: which array a probe shows -/

/-- **C64** The nine component names select the nine arrays, and other names none of them. -/
theorem C64_components (er ephi ez hr hphi hz jr jphi jz : Grid) :
    (["E_r", "E_phi", "E_z", "H_r", "H_phi", "H_z", "J_r", "J_phi", "J_z"].map
        fun c => nineArrays er ephi ez hr hphi hz jr jphi jz c.toList)
      = [some er, some ephi, some ez, some hr, some hphi, some hz, some jr, some jphi, some jz] ∧
    ∀ c : List Char, c ∉ ["E_r", "E_phi", "E_z", "H_r", "H_phi", "H_z", "J_r", "J_phi", "J_z"].map String.toList →
      nineArrays er ephi ez hr hphi hz jr jphi jz c = none := by
  constructor
  · simp [nineArrays]
  · intro c hc
    simp only [List.map_cons, List.map_nil, List.mem_cons, List.not_mem_nil, or_false, not_or] at hc
    simp at hc
    simp [nineArrays, hc]

/-- What the probe asks for does not exist (specification): no species of the name for a temperature, a density
or a macroparticle probe; a name that is nothing else for another probe. -/
def Missing (S : Snap) (p : ProbeDecl) : Prop :=
  S.arr p.component = none ∧ p.component ≠ rhoBeamName ∧
  (p.component = ['T'] → ∀ s ∈ S.temps, s.1 ≠ p.specie) ∧
  (p.component = ['d', 'e', 'n', 's', 'i', 't', 'y'] → ∀ s ∈ S.dens, s.1 ≠ p.specie) ∧
  (p.kind = .mpframe → ∀ s ∈ S.parts, s.1 ≠ p.component)

theorem foldlM_skip {α : Type} (c : α → Prop) [DecidablePred c] (r : OutFS → α → Option OutFS) (l : List α)
    (h : ∀ s ∈ l, ¬ c s) (fs : OutFS) : l.foldlM (fun fs s => if c s then r fs s else some fs) fs = some fs := by
  rw [foldlM_filter, List.filter_eq_nil_iff.2 (by simpa using h)]
  rfl

/-- **C64** fails for a probe that asks for something that does not exist, such as a misspelled component or
species: the run goes through without any message, and nothing is ever written. -/
theorem C64_missing_violated (G : Geom) (fpf : ℕ) (hfpf : 0 < fpf) (root : List Char) (t0 dt : ℝ) (S : ℕ → Snap)
    (p : ProbeDecl) (hs : p.schedule ≠ 0) (hm : ∀ j, Missing (S j) p) (fs0 : OutFS) (N : ℕ) :
    ∃ n, outputRun G fpf root t0 dt S [p] fs0 N = some ([(p, n)], fs0) := by
  induction N with
  | zero => exact ⟨0, rfl⟩
  | succ N ih =>
    obtain ⟨n, h⟩ := ih
    have hw : ∀ rho, dumpWrite G fpf root (S N) p n fs0 rho = some (fs0, rho) := by
      intro rho
      obtain ⟨m1, m2, m3, m4, m5⟩ := hm N
      unfold rhoBeamName at m2
      unfold dumpWrite
      simp only [m1]
      rw [if_neg m2]
      split_ifs with h1 h2 h3
      · rw [foldlM_skip (fun s : List Char × Grid => s.1 = p.specie) _ _ (m3 h1)]; rfl
      · rw [foldlM_skip (fun s : List Char × Grid => s.1 = p.specie) _ _ (m4 h2)]; rfl
      · rw [foldlM_skip (fun s : List Char × List Particle => s.1 = p.component) _ _ (m5 h3)]; rfl
      · rfl
    simp only [outputRun, h, Option.bind_some, dumpData]
    unfold dumpOne
    rw [if_neg hs, if_neg hfpf.ne', hw]
    split_ifs
    · exact ⟨n + 1, rfl⟩
    · exact ⟨n, rfl⟩

/-- **C64** fails for a macroparticle probe of a species called like an array, `T` or `density`: nothing is
written although the species exists. -/
theorem C64_name_violated (G : Geom) (fpf : ℕ) (hfpf : 0 < fpf) (root : List Char) (t0 dt : ℝ) (S : ℕ → Snap)
    (p : ProbeDecl) (hk : p.kind = .mpframe) (hs : p.schedule ≠ 0)
    (hname : (∃ g : ℕ → Grid, ∀ j, (S j).arr p.component = some (g j)) ∨ p.component = ['T'] ∨
      p.component = ['d', 'e', 'n', 's', 'i', 't', 'y'])
    (fs0 : OutFS) (N : ℕ) :
    ∃ n, outputRun G fpf root t0 dt S [p] fs0 N = some ([(p, n)], fs0) := by
  have hpl : p.kind.plain = none := by rw [hk]; rfl
  have hwa : ∀ nr nz name g fs, writeArr nr nz root p name g fs = some fs := by
    intro nr nz name g fs
    unfold writeArr
    rw [hpl]
  have hfold : ∀ (name : List Char) (l : List (List Char × Grid)) (fs : OutFS),
      l.foldlM (fun fs s => if s.1 = p.specie then writeArr G.nr G.nz root p name s.2 fs else some fs) fs = some fs := by
    intro name l
    induction l with
    | nil => intro fs; rfl
    | cons s l ih =>
      intro fs
      simp only [hwa, ite_self] at ih ⊢
      rw [List.foldlM_cons]
      exact ih fs
  induction N with
  | zero => exact ⟨0, rfl⟩
  | succ N ih =>
    obtain ⟨n, h⟩ := ih
    have hw : ∃ rho', dumpWrite G fpf root (S N) p n fs0 (S N).beam = some (fs0, rho') := by
      unfold dumpWrite
      cases ha : (S N).arr p.component with
      | some g => exact ⟨_, by simp only [hwa]; rfl⟩
      | none =>
        simp only
        rcases hname with ⟨g, hg⟩ | hc | hc
        · rw [hg N] at ha; cases ha
        · rw [if_neg (by rw [hc]; decide), if_pos hc, hfold]; exact ⟨_, rfl⟩
        · rw [if_neg (by rw [hc]; decide), if_neg (by rw [hc]; decide), if_pos hc, hfold]; exact ⟨_, rfl⟩
    obtain ⟨rho', hw⟩ := hw
    simp only [outputRun, h, Option.bind_some, dumpData]
    unfold dumpOne
    rw [if_neg hs, if_neg hfpf.ne', hw]
    split_ifs
    · exact ⟨n + 1, rfl⟩
    · exact ⟨n, rfl⟩

/-- Not vacuous: the probes of parameters.xml.in have different directories, two of them are usable in a
run on a grid of 256 × 2048 nodes, and an array is offered to the first. -/
example : Separate "./pdp3_result".toList
      [⟨.col, "E_r".toList, noneText, 0, 100, 255, -1, 50⟩, ⟨.row, "E_r".toList, noneText, 10, 0, -1, 2047, 50⟩,
       ⟨.dot, "rho_beam".toList, noneText, 10, 50, -1, -1, 5⟩, ⟨.frame, "E_r".toList, noneText, 0, 0, 10, 200, 5⟩,
       ⟨.frame, "T".toList, "electrons".toList, 0, 0, 10, 20, 5⟩,
       ⟨.mpframe, "electrons".toList, noneText, 0, 0, 10, 20, 5⟩] ∧
    Usable ⟨1, 1, 256, 2048, 1, 1⟩ "./pdp3_result".toList 9 ⟨.col, "E_r".toList, noneText, 0, 100, 255, -1, 50⟩ := by
  refine ⟨?_, by norm_num, ?_, by decide⟩
  · unfold Separate; decide
  · intro kd h
    cases h
    intro _
    decide

end Verif
