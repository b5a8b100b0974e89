import Verif.CacheProps
import Verif.Session
import Verif.ReaderProps
import Verif.ResultReaderProps

/-!
# C86: a reader shows what is in the files
-/

namespace Verif

/-! ## Specification -/

/-- The frame as a new reader without cache gives it from the files as they are (C66): its numbers, row by row -/
noncomputable def frameNow (c : ReaderCfg) (fs : OutFS) (q : FrameReq) : Option (List ℝ) :=
  (fsGetFrame fs c.root q.component c.fpds q.s0 q.s1 q.s2 q.s3 q.number).map List.flatten

/-- Numbers were added to the ends of files, or files were added. -/
def Grows (fs fs' : OutFS) : Prop := ∀ p d, fs p = some d → ∃ e, fs' p = some (d ++ e)

/-- Every directory has a finite number of files. -/
def FiniteDirs (fs : OutFS) : Prop := ∀ dir, {name | '/' ∉ name ∧ dataName name ∧ fs (dir ++ '/' :: name) ≠ none}.Finite

/-- Histories in which a simulator only goes on with its run, and, if the cache is on, no caller writes to an array
that it got -/
def Growing (c : ReaderCfg) : OutFS → List SessionEvent → Prop
  | _, [] => True
  | fs, .files fs' :: es => Grows fs fs' ∧ FiniteDirs fs' ∧ Growing c fs' es
  | fs, .change _ _ :: es => c.use_cache = false ∧ Growing c fs es
  | fs, .get _ :: es => Growing c fs es
  | fs, .restart :: es => Growing c fs es

/-- Nothing is written to the result files. -/
def SessionEvent.still : SessionEvent → Prop
  | .files _ => False
  | _ => True

/-! ## Lemmas -/

theorem chunk_flat {α} (a b : ℕ) (l : List α) (h : l.length = a * b) : (chunk a b l).flatten = l := by
  induction a generalizing l with
  | zero =>
    rw [Nat.zero_mul] at h
    rw [List.length_eq_zero_iff.1 h]
    rfl
  | succ a ih =>
    have e : chunk (a + 1) b l = l.take b :: chunk a b (l.drop b) := by
      unfold chunk
      rw [List.range_succ_eq_map, List.map_cons, List.map_map]
      congr 1
      · rw [Nat.zero_mul, List.drop_zero]
      · apply List.map_congr_left
        intro i _
        simp only [Function.comp, List.drop_drop]
        congr 2
        rw [Nat.succ_mul, Nat.add_comm]
    rw [e, List.flatten_cons, ih, List.take_append_drop]
    rw [List.length_drop, h, Nat.succ_mul]
    omega

theorem chunk_lengths {α} (a b : ℕ) (l : List α) (h : l.length = a * b) : ∀ x ∈ chunk a b l, x.length = b := by
  intro x hx
  unfold chunk at hx
  obtain ⟨i, hi, rfl⟩ := List.mem_map.1 hx
  rw [List.length_take, List.length_drop, h]
  have hi := List.mem_range.1 hi
  have : (i + 1) * b ≤ a * b := Nat.mul_le_mul_right b hi
  rw [Nat.succ_mul] at this
  omega

theorem reshape_some {α} {a b : ℕ} {l : List α} {r : List (List α)} (h : reshape a b l = some r) :
    l.length = a * b ∧ r = chunk a b l := by
  unfold reshape at h
  split_ifs at h with h0
  exact ⟨h0, (Option.some.inj h).symm⟩

theorem mapM_reshape_chunks {α} (h w : ℕ) (r : List (List α)) (hr : ∀ x ∈ r, x.length = h * w) :
    r.mapM (reshape h w) = some (r.map (chunk h w)) := by
  induction r with
  | nil => rfl
  | cons x r ih =>
    rw [List.mapM_cons, ih fun y hy => hr y (List.mem_cons_of_mem _ hy)]
    unfold reshape
    rw [if_pos (hr x List.mem_cons_self)]
    rfl

/-- The reading of the files in a session, with the right number of files, is the one without a session. -/
theorem frameNow_eq (c : ReaderCfg) (fs : OutFS) (q : FrameReq) :
    frameNow c fs q = (readerPath c.root q.component .frame [q.s0, q.s1, q.s2, q.s3]).bind fun dir =>
      if fileRange fs dir * c.fpds ≤ q.number then none
      else readFrame fs dir (fileRange fs dir) c.fpds (q.s2 - q.s0) (q.s3 - q.s1) q.number := by
  unfold frameNow fsGetFrame
  rcases readerPath c.root q.component .frame [q.s0, q.s1, q.s2, q.s3] with _ | dir
  · rfl
  · simp only [Option.bind_some]
    by_cases h1 : fileRange fs dir * c.fpds ≤ q.number
    · rw [if_pos h1, if_pos h1]; rfl
    · rw [if_neg h1, if_neg h1]
      unfold readFrame fsAllInDs
      by_cases h2 : fileRange fs dir < q.number / c.fpds
      · rw [if_pos h2, if_pos h2]; rfl
      · rw [if_neg h2, if_neg h2, if_neg h2]
        rcases fs (dir ++ '/' :: (dec (q.number / c.fpds) ++ ['.', 'd', 'a', 't'])) with _ | data
        · rfl
        · simp only [Option.bind_some]
          rcases hre : reshape c.fpds ((q.s2 - q.s0) * (q.s3 - q.s1))
            (data.take ((q.s2 - q.s0) * (q.s3 - q.s1) * c.fpds)) with _ | r
          · rfl
          · obtain ⟨hl, rfl⟩ := reshape_some hre
            have hlen := chunk_lengths _ _ _ hl
            simp only [Option.bind_some]
            rw [mapM_reshape_chunks _ _ _ hlen, Option.bind_some, List.getElem?_map]
            rcases hk : (chunk c.fpds ((q.s2 - q.s0) * (q.s3 - q.s1))
              (data.take ((q.s2 - q.s0) * (q.s3 - q.s1) * c.fpds)))[q.number % c.fpds]? with _ | x
            · rfl
            · simp only [Option.map_some]
              rw [chunk_flat _ _ _ (hlen x (List.mem_of_getElem? hk))]

theorem fileRange_mono {fs fs' : OutFS} (h : Grows fs fs') (hf : FiniteDirs fs') (dir : List Char) :
    fileRange fs dir ≤ fileRange fs' dir := by
  unfold fileRange
  apply Set.ncard_le_ncard _ (hf dir)
  rintro name ⟨h1, h2, h3⟩
  refine ⟨h1, h2, ?_⟩
  obtain ⟨d, hd⟩ := Option.ne_none_iff_exists'.1 h3
  obtain ⟨e, he⟩ := h _ _ hd
  rw [he]
  exact Option.some_ne_none _

theorem readFrame_mono {fs fs' : OutFS} (h : Grows fs fs') {dir : List Char} {range range' fpds a b n : ℕ}
    (hr : range ≤ range') {v : List ℝ} (hv : readFrame fs dir range fpds a b n = some v) :
    readFrame fs' dir range' fpds a b n = some v := by
  unfold readFrame at hv ⊢
  split_ifs at hv with h1
  rw [if_neg (by omega)]
  rcases hd : fs (dir ++ '/' :: (dec (n / fpds) ++ ['.', 'd', 'a', 't'])) with _ | d
  · rw [hd] at hv; cases hv
  · obtain ⟨e, he⟩ := h _ _ hd
    rw [hd, Option.bind_some] at hv
    rw [he, Option.bind_some]
    rcases hre : reshape fpds (a * b) (d.take (a * b * fpds)) with _ | r
    · rw [hre] at hv; cases hv
    · obtain ⟨hl, -⟩ := reshape_some hre
      rw [List.length_take] at hl
      have : a * b * fpds ≤ d.length := by
        rw [Nat.mul_comm fpds] at hl
        omega
      rw [List.take_append_of_le_length this, hre]
      rw [hre] at hv
      exact hv

/-- A frame that is there stays as it is when the run goes on. -/
theorem frameNow_mono {c : ReaderCfg} {fs fs' : OutFS} (h : Grows fs fs') (hf : FiniteDirs fs') {q : FrameReq}
    {v : List ℝ} (hv : frameNow c fs q = some v) : frameNow c fs' q = some v := by
  rw [frameNow_eq] at hv ⊢
  rcases hp : readerPath c.root q.component .frame [q.s0, q.s1, q.s2, q.s3] with _ | dir
  · rw [hp] at hv; cases hv
  · rw [hp, Option.bind_some] at hv
    rw [Option.bind_some]
    split_ifs at hv with h1
    have hm := fileRange_mono h hf dir
    have : ¬ fileRange fs' dir * c.fpds ≤ q.number := by
      have := Nat.mul_le_mul_right c.fpds hm
      omega
    rw [if_neg this]
    exact readFrame_mono h hm hv

theorem frameNow_length {c : ReaderCfg} {fs : OutFS} {q : FrameReq} {v : List ℝ} (hv : frameNow c fs q = some v) :
    v.length = (q.s2 - q.s0) * (q.s3 - q.s1) := by
  rw [frameNow_eq] at hv
  rcases hp : readerPath c.root q.component .frame [q.s0, q.s1, q.s2, q.s3] with _ | dir
  · rw [hp] at hv; cases hv
  · rw [hp, Option.bind_some] at hv
    split_ifs at hv with h1
    unfold readFrame at hv
    split_ifs at hv
    obtain ⟨d, -, hv⟩ := Option.bind_eq_some_iff.1 hv
    obtain ⟨r, hr, hv⟩ := Option.bind_eq_some_iff.1 hv
    obtain ⟨hl, rfl⟩ := reshape_some hr
    exact chunk_lengths _ _ _ hl _ (List.mem_of_getElem? hv)

theorem frameKey_injective {p q : FrameReq} (h : p.key = q.key) : p = q := by
  have := key_injective (p := .frame p.component p.s0 p.s1 p.s2 p.s3 p.number)
    (q := .frame q.component q.s0 q.s1 q.s2 q.s3 q.number) trivial h
  cases p; cases q
  simp only [Req.frame.injEq] at this
  obtain ⟨rfl, rfl, rfl, rfl, rfl, rfl⟩ := this
  rfl

/-- What holds at all times in a growing history -/
structure SessionInv (c : ReaderCfg) (fs : OutFS) (s : ReaderState) : Prop where
  ranges : ∀ dir n, s.ranges dir = some n → n ≤ fileRange fs dir
  memory : c.use_cache = true → ∀ q a, s.memory (FrameReq.key q) = some a → ∃ v, s.heap[a]? = some v ∧
    frameNow c fs q = some v
  disk : c.use_cache = true → ∀ q v, s.disk (FrameReq.key q) = some v → frameNow c fs q = some v

theorem SessionInv.alloc {c : ReaderCfg} {fs : OutFS} {s : ReaderState} (h : SessionInv c fs s) (v : List ℝ) :
    SessionInv c fs (s.alloc v).2 where
  ranges := h.ranges
  memory := fun hc q a ha => by
    obtain ⟨w, h1, h2⟩ := h.memory hc q a ha
    refine ⟨w, ?_, h2⟩
    show (s.heap ++ [v])[a]? = _
    rw [List.getElem?_append_left (by
      by_contra hlt
      rw [List.getElem?_eq_none (not_lt.1 hlt)] at h1
      cases h1)]
    exact h1
  disk := h.disk

theorem SessionInv.update {c : ReaderCfg} {fs : OutFS} {s : ReaderState} (h : SessionInv c fs s) {q : FrameReq}
    {a : ℕ} {v : List ℝ} (ha : s.heap[a]? = some v) (hv : frameNow c fs q = some v) :
    SessionInv c fs (updateCache q.key a s) where
  ranges := h.ranges
  memory := fun hc p b hb => by
    by_cases hk : p.key = q.key
    · obtain rfl := frameKey_injective hk
      simp only [updateCache, Function.update_self, Option.some.injEq] at hb
      subst hb
      exact ⟨v, ha, hv⟩
    · simp only [updateCache, Function.update_of_ne hk] at hb
      exact h.memory hc p b hb
  disk := fun hc p w hw => by
    by_cases hk : p.key = q.key
    · obtain rfl := frameKey_injective hk
      simp only [updateCache, Function.update_self, Option.some.injEq, ha, Option.getD_some] at hw
      subst hw
      exact hv
    · simp only [updateCache, Function.update_of_ne hk] at hw
      exact h.disk hc p w hw

theorem SessionInv.range {c : ReaderCfg} {fs : OutFS} {s : ReaderState} (h : SessionInv c fs s) (dir : List Char) :
    SessionInv c fs (dsRange fs dir s).2 ∧ (dsRange fs dir s).1 ≤ fileRange fs dir := by
  unfold dsRange
  rcases hr : s.ranges dir with _ | n
  · refine ⟨⟨fun d n hn => ?_, h.memory, h.disk⟩, le_rfl⟩
    by_cases hd : d = dir
    · subst hd
      simp only [Function.update_self, Option.some.injEq] at hn
      exact hn.ge
    · simp only [Function.update_of_ne hd] at hn
      exact h.ranges d n hn
  · exact ⟨h, h.ranges dir n hr⟩

theorem SessionInv.cache {c : ReaderCfg} {fs : OutFS} {s : ReaderState} (h : SessionInv c fs s)
    (hc : c.use_cache = true) (q : FrameReq) :
    SessionInv c fs (getCache q.key s).2 ∧
    ∀ a, (getCache q.key s).1 = some a → ∃ v, (getCache q.key s).2.heap[a]? = some v ∧ frameNow c fs q = some v := by
  unfold getCache
  rcases hm : s.memory q.key with _ | a
  · rcases hd : s.disk q.key with _ | v
    · exact ⟨h, fun a ha => by cases ha⟩
    · have hq := h.disk hc q v hd
      have ha := h.alloc v
      have hget : (s.heap ++ [v])[s.heap.length]? = some v := by simp
      refine ⟨⟨ha.ranges, fun _ p b hb => ?_, ha.disk⟩, fun a ha => ?_⟩
      · by_cases hk : p.key = q.key
        · obtain rfl := frameKey_injective hk
          simp only [Function.update_self, Option.some.injEq] at hb
          subst hb
          exact ⟨v, hget, hq⟩
        · simp only [Function.update_of_ne hk] at hb
          exact ha.memory hc p b hb
      · simp only [Option.some.injEq] at ha
        subst ha
        exact ⟨v, hget, hq⟩
  · refine ⟨h, fun b hb => ?_⟩
    simp only [Option.some.injEq] at hb
    subst hb
    exact h.memory hc q a hm

/-- A read keeps the invariant; what it gives is the frame in the files; and it does give it if the number of files is the
one remembered, or none is. -/
theorem sessionFrame_spec {c : ReaderCfg} {fs : OutFS} {s : ReaderState} (h : SessionInv c fs s) (q : FrameReq) :
    SessionInv c fs (sessionFrame c fs q s).2 ∧
    (∀ v, sessionValue c q (fs, s) = some v → frameNow c fs q = some v) ∧
    ((∀ dir n, s.ranges dir = some n → n = fileRange fs dir) →
      sessionValue c q (fs, s) = frameNow c fs q ∧
      ∀ dir n, (sessionFrame c fs q s).2.ranges dir = some n → n = fileRange fs dir) := by
  have hfn := frameNow_eq c fs q
  unfold sessionValue
  unfold sessionFrame
  rcases hp : readerPath c.root q.component .frame [q.s0, q.s1, q.s2, q.s3] with _ | dir
  · rw [hp] at hfn
    exact ⟨h, fun v hv => (by cases hv), fun hr => ⟨hfn.symm, hr⟩⟩
  · rw [hp, Option.bind_some] at hfn
    obtain ⟨hi, hle⟩ := h.range dir
    have hexact : (∀ dir n, s.ranges dir = some n → n = fileRange fs dir) → (dsRange fs dir s).1 = fileRange fs dir ∧
        ∀ dir' n, (dsRange fs dir s).2.ranges dir' = some n → n = fileRange fs dir' := by
      intro hr
      unfold dsRange
      rcases hrd : s.ranges dir with _ | n
      · refine ⟨rfl, fun d n hn => ?_⟩
        by_cases hd : d = dir
        · subst hd
          simp only [Function.update_self, Option.some.injEq] at hn
          exact hn.symm
        · simp only [Function.update_of_ne hd] at hn
          exact hr d n hn
      · exact ⟨hr dir n hrd, hr⟩
    obtain ⟨r, hrr⟩ : ∃ r, r = dsRange fs dir s := ⟨_, rfl⟩
    simp only [← hrr] at hi hle hexact ⊢
    by_cases h1 : r.1 * c.fpds ≤ q.number
    · simp only [if_pos h1]
      refine ⟨hi, fun v hv => (by cases hv), fun hr => ⟨?_, (hexact hr).2⟩⟩
      rw [(hexact hr).1] at h1
      rw [hfn, if_pos h1]
      rfl
    · simp only [if_neg h1]
      have h1' : ¬ fileRange fs dir * c.fpds ≤ q.number := by
        have := Nat.mul_le_mul_right c.fpds hle
        omega
      rw [if_neg h1'] at hfn
      obtain ⟨g, hg⟩ : ∃ g, g = if c.use_cache then getCache q.key r.2 else (none, r.2) := ⟨_, rfl⟩
      rw [← hg]
      have hgi : SessionInv c fs g.2 ∧
          (∀ a, g.1 = some a → ∃ v, g.2.heap[a]? = some v ∧ frameNow c fs q = some v) ∧ g.2.ranges = r.2.ranges ∧
          (g.1 ≠ none → c.use_cache = true) := by
        rw [hg]
        by_cases hc : c.use_cache = true
        · rw [if_pos hc]
          obtain ⟨i1, i2⟩ := hi.cache hc q
          refine ⟨i1, i2, ?_, fun _ => hc⟩
          unfold getCache
          rcases r.2.memory q.key with _ | a
          · rcases r.2.disk q.key with _ | v <;> rfl
          · rfl
        · rw [if_neg hc]
          exact ⟨hi, fun a ha => (by cases ha), rfl, fun hn => absurd rfl hn⟩
      obtain ⟨gi, gv, gr, gc⟩ := hgi
      rcases ho : g.1.filter (fun a => g.2.heap[a]?.getD [] ≠ []) with _ | a
      · simp only
        rcases hrd : readFrame fs dir r.1 c.fpds (q.s2 - q.s0) (q.s3 - q.s1) q.number with _ | v
        · refine ⟨gi, fun v hv => (by cases hv), fun hr => ⟨?_, ?_⟩⟩
          · rw [(hexact hr).1] at hrd
            rw [hfn, hrd]
            rfl
          · rw [gr]
            exact (hexact hr).2
        · simp only
          have hfv : frameNow c fs q = some v := by
            rw [hfn]
            exact readFrame_mono (fun p d hd => ⟨[], by rw [List.append_nil]; exact hd⟩) hle hrd
          have hget : (g.2.alloc v).2.heap[(g.2.alloc v).1]? = some v := by
            show (g.2.heap ++ [v])[g.2.heap.length]? = some v
            simp
          by_cases hc : c.use_cache = true
          · simp only [if_pos hc, Option.bind_some]
            have hval : (updateCache q.key (g.2.alloc v).1 (g.2.alloc v).2).heap[(g.2.alloc v).1]? = some v := hget
            rw [hval]
            refine ⟨(gi.alloc v).update hget hfv, fun w hw => ?_, fun hr => ⟨hfv.symm, ?_⟩⟩
            · rw [← hw]; exact hfv
            · show ∀ dir n, g.2.ranges dir = some n → _
              rw [gr]
              exact (hexact hr).2
          · simp only [if_neg hc, Option.bind_some]
            rw [hget]
            refine ⟨gi.alloc v, fun w hw => ?_, fun hr => ⟨hfv.symm, ?_⟩⟩
            · rw [← hw]; exact hfv
            · show ∀ dir n, g.2.ranges dir = some n → _
              rw [gr]
              exact (hexact hr).2
      · simp only
        have hga : g.1 = some a := by
          rw [Option.filter_eq_some_iff] at ho
          exact ho.1
        obtain ⟨v, hav, hfv⟩ := gv a hga
        have hl := frameNow_length hfv
        have : (g.2.heap[a]?.getD []).length = (q.s2 - q.s0) * (q.s3 - q.s1) := by
          rw [hav]; exact hl
        simp only [if_pos this, Option.bind_some]
        have hval : (updateCache q.key a g.2).heap[a]? = some v := hav
        rw [hval]
        refine ⟨gi.update hav hfv, fun w hw => ?_, fun hr => ⟨hfv.symm, ?_⟩⟩
        · rw [← hw]; exact hfv
        · show ∀ dir n, g.2.ranges dir = some n → _
          rw [gr]
          exact (hexact hr).2

theorem session_inv {c : ReaderCfg} {es : List SessionEvent} {x : OutFS × ReaderState} (hx : SessionInv c x.1 x.2)
    (h : Growing c x.1 es) : SessionInv c (sessionAfter c es x).1 (sessionAfter c es x).2 := by
  induction es generalizing x with
  | nil => exact hx
  | cons e es ih =>
    rw [sessionAfter]
    obtain ⟨fs, s⟩ := x
    cases e with
    | get q => exact ih (sessionFrame_spec hx q).1 h
    | change a v =>
      obtain ⟨hc, h⟩ := h
      refine ih ⟨hx.ranges, fun hc' => ?_, fun hc' => ?_⟩ h
      · rw [hc] at hc'; cases hc'
      · rw [hc] at hc'; cases hc'
    | restart =>
      refine ih ⟨fun _ _ hn => (by cases hn), fun _ _ _ ha => (by cases ha), hx.disk⟩ h
    | files fs' =>
      obtain ⟨hg, hf, h⟩ := h
      refine ih ⟨fun dir n hn => (hx.ranges dir n hn).trans (fileRange_mono hg hf dir), fun hc q a ha => ?_,
        fun hc q v hv => frameNow_mono hg hf (hx.disk hc q v hv)⟩ h
      obtain ⟨v, h1, h2⟩ := hx.memory hc q a ha
      exact ⟨v, h1, frameNow_mono hg hf h2⟩

theorem fresh_inv (c : ReaderCfg) (fs : OutFS) : SessionInv c fs .fresh :=
  ⟨fun _ _ h => (by cases h), fun _ _ _ h => (by cases h), fun _ _ _ h => (by cases h)⟩

theorem growing_append {c : ReaderCfg} {fs : OutFS} {a b : List SessionEvent} {s : ReaderState}
    (h : Growing c fs (a ++ b)) : Growing c fs a ∧ Growing c (sessionAfter c a (fs, s)).1 b := by
  induction a generalizing fs s with
  | nil => exact ⟨trivial, h⟩
  | cons e a ih =>
    rw [sessionAfter]
    cases e with
    | get q => exact ih h
    | change x v => exact ⟨⟨h.1, (ih (s := s) h.2).1⟩, (ih h.2).2⟩
    | restart => exact ih h
    | files fs' => exact ⟨⟨h.1, h.2.1, (ih (s := s) h.2.2).1⟩, (ih h.2.2).2⟩

theorem sessionAfter_append (c : ReaderCfg) (a b : List SessionEvent) (x : OutFS × ReaderState) :
    sessionAfter c (a ++ b) x = sessionAfter c b (sessionAfter c a x) := by
  induction a generalizing x with
  | nil => rfl
  | cons e a ih => exact ih _

/-! ## Theorems -/

/-- **C86 (partial)** In every history in which the run only goes on, and no caller writes to an array while the cache is
on, what a reader gives for a frame is the frame that is in the files at that time.
Missing: callers that write, runs that start anew (`C86_alias_violated`, `C86_rerun_violated`), and that it gives it at
all (`C86_complete_partial`, `C86_growing_violated`). -/
theorem C86_right_partial (c : ReaderCfg) (fs : OutFS) (history : List SessionEvent) (h : Growing c fs history)
    (q : FrameReq) (v : List ℝ)
    (hv : sessionValue c q (sessionAfter c history (fs, .fresh)) = some v) :
    frameNow c (sessionAfter c history (fs, .fresh)).1 q = some v :=
  (sessionFrame_spec (session_inv (fresh_inv c fs) h) q).2.1 v hv

/-- **C86 (partial)** If nothing was written to the result files since the reader was made, it gives exactly what is in
them, and refuses exactly what is not; whatever happened before, and whatever has been read since.
Missing: see `C86_right_partial`. -/
theorem C86_complete_partial (c : ReaderCfg) (fs : OutFS) (before since : List SessionEvent)
    (h : Growing c fs (before ++ .restart :: since)) (hs : ∀ e ∈ since, e.still) (q : FrameReq) :
    sessionValue c q (sessionAfter c (before ++ .restart :: since) (fs, .fresh))
      = frameNow c (sessionAfter c (before ++ .restart :: since) (fs, .fresh)).1 q := by
  rw [sessionAfter_append]
  obtain ⟨h1, h2⟩ := growing_append (s := .fresh) h
  have hi := session_inv (x := (fs, .fresh)) (fresh_inv c fs) h1
  obtain ⟨x, hx⟩ : ∃ x, x = sessionAfter c before (fs, .fresh) := ⟨_, rfl⟩
  rw [← hx] at hi h2 ⊢
  clear hx h1 h
  rw [sessionAfter]
  obtain ⟨fs1, s1⟩ := x
  have hi' : SessionInv c fs1 (sessionStep c .restart (fs1, s1)).2 :=
    ⟨fun _ _ hn => (by cases hn), fun _ _ _ ha => (by cases ha), hi.disk⟩
  have hr : ∀ dir n, (sessionStep c .restart (fs1, s1)).2.ranges dir = some n → n = fileRange fs1 dir :=
    fun _ _ hn => (by cases hn)
  have hg : Growing c fs1 since := h2
  obtain ⟨s2, hs2⟩ : ∃ s2, s2 = (sessionStep c .restart (fs1, s1)).2 := ⟨_, rfl⟩
  have e : sessionStep c .restart (fs1, s1) = (fs1, s2) := by rw [hs2]; rfl
  rw [e]
  rw [← hs2] at hi' hr
  clear hs2 e hi h2
  induction since generalizing s2 with
  | nil => exact ((sessionFrame_spec hi' q).2.2 hr).1
  | cons e es ih =>
    rw [sessionAfter]
    have hes := fun e he => hs e (List.mem_cons_of_mem _ he)
    cases e with
    | get p =>
      obtain ⟨j1, -, j2⟩ := sessionFrame_spec hi' p
      exact ih hes hg _ (j2 hr).2 j1
    | change a v =>
      obtain ⟨hc, hg⟩ := hg
      refine ih hes hg _ hr ⟨hi'.ranges, fun hc' => ?_, fun hc' => ?_⟩
      · rw [hc] at hc'; cases hc'
      · rw [hc] at hc'; cases hc'
    | restart =>
      exact ih hes hg _ (fun _ _ hn => (by cases hn))
        ⟨fun _ _ hn => (by cases hn), fun _ _ _ ha => (by cases ha), hi'.disk⟩
    | files fs' => exact (hs _ List.mem_cons_self).elim

/-- A first read without cache, or with an empty one, gives the frame, at address 0, and with the cache keeps it there and on
disk. -/
theorem first_get {c : ReaderCfg} (hc : c.use_cache = true) {fs : OutFS} {q : FrameReq} {v : List ℝ}
    (hv : frameNow c fs q = some v) :
    ∃ s, sessionFrame c fs q .fresh = (some 0, s) ∧ s.heap = [v] ∧ s.memory q.key = some 0 ∧ s.disk q.key = some v ∧
      ∀ dir, readerPath c.root q.component .frame [q.s0, q.s1, q.s2, q.s3] = some dir →
        s.ranges dir = some (fileRange fs dir) ∧ ¬ fileRange fs dir * c.fpds ≤ q.number := by
  rw [frameNow_eq] at hv
  rcases hp : readerPath c.root q.component .frame [q.s0, q.s1, q.s2, q.s3] with _ | dir
  · rw [hp] at hv; cases hv
  · rw [hp, Option.bind_some] at hv
    split_ifs at hv with h1
    unfold sessionFrame
    rw [hp]
    simp only [dsRange, ReaderState.fresh, if_neg h1, hc, if_true, getCache, Option.filter_none, hv,
      ReaderState.alloc]
    refine ⟨_, rfl, rfl, ?_, ?_, ?_⟩
    · simp [updateCache]
    · simp [updateCache]
    · intro d hd
      cases hd
      exact ⟨by simp [updateCache], h1⟩

/-- A read that finds the frame in the cache -/
theorem cached_get {c : ReaderCfg} (hc : c.use_cache = true) {fs : OutFS} {q : FrameReq} {v : List ℝ} (hv : v ≠ [])
    (hl : v.length = (q.s2 - q.s0) * (q.s3 - q.s1)) {dir : List Char}
    (hp : readerPath c.root q.component .frame [q.s0, q.s1, q.s2, q.s3] = some dir) {s : ReaderState}
    (hr : ¬ (dsRange fs dir s).1 * c.fpds ≤ q.number)
    (hm : (∃ a, s.memory q.key = some a ∧ s.heap[a]? = some v) ∨ (s.memory q.key = none ∧ s.disk q.key = some v)) :
    ∃ a s', sessionFrame c fs q s = (some a, s') ∧ s'.heap[a]? = some v ∧ s'.disk q.key = some v := by
  unfold sessionFrame
  rw [hp]
  have e1 : (dsRange fs dir s).2.memory = s.memory := by
    unfold dsRange
    rcases s.ranges dir with _ | n <;> rfl
  have e2 : (dsRange fs dir s).2.heap = s.heap := by
    unfold dsRange
    rcases s.ranges dir with _ | n <;> rfl
  have e3 : (dsRange fs dir s).2.disk = s.disk := by
    unfold dsRange
    rcases s.ranges dir with _ | n <;> rfl
  simp only [if_neg hr, hc, if_true]
  rcases hm with ⟨a, h1, h2⟩ | ⟨h1, h2⟩
  · have hg : getCache q.key (dsRange fs dir s).2 = (some a, (dsRange fs dir s).2) := by
      unfold getCache
      rw [e1, h1]
    have hf : (some a).filter (fun a => s.heap[a]?.getD [] ≠ []) = some a := by
      rw [Option.filter_eq_some_iff]
      refine ⟨rfl, ?_⟩
      rw [h2, Option.getD_some]
      exact decide_eq_true hv
    rw [hg]
    simp only [e2]
    rw [hf]
    simp only [h2, Option.getD_some, if_pos hl]
    refine ⟨a, _, rfl, ?_, ?_⟩
    · simp [updateCache, e2, h2]
    · simp [updateCache, e2, h2]
  · have hg : getCache q.key (dsRange fs dir s).2 = (some s.heap.length,
        { (dsRange fs dir s).2 with heap := s.heap ++ [v], memory := Function.update s.memory q.key (some s.heap.length) }) := by
      unfold getCache
      rw [e1, h1, e3, h2]
      simp only [ReaderState.alloc, e2]
    have hget : (s.heap ++ [v])[s.heap.length]? = some v := by simp
    have hf : (some s.heap.length).filter (fun a => (s.heap ++ [v])[a]?.getD [] ≠ []) = some s.heap.length := by
      rw [Option.filter_eq_some_iff]
      refine ⟨rfl, ?_⟩
      rw [hget, Option.getD_some]
      exact decide_eq_true hv
    rw [hg]
    simp only [hf, hget, Option.getD_some, if_pos hl]
    refine ⟨_, _, rfl, ?_, ?_⟩
    · simp [updateCache]
    · simp [updateCache]

/-- **C86 violated: a caller writes.** With the cache on the array that a caller gets is the one in the cache.  Whatever
numbers the caller puts there are what everybody gets for this frame from then on; after one more read also in new
processes. -/
theorem C86_alias_violated (c : ReaderCfg) (hc : c.use_cache = true) (fs : OutFS) (q : FrameReq) (v w : List ℝ)
    (hv : frameNow c fs q = some v) (hw : w.length = v.length) (hne : w ≠ []) :
    (sessionFrame c fs q .fresh).1 = some 0 ∧
    sessionValue c q (sessionAfter c [.get q, .change 0 w] (fs, .fresh)) = some w ∧
    sessionValue c q (sessionAfter c [.get q, .change 0 w, .get q, .restart] (fs, .fresh)) = some w := by
  obtain ⟨s, h1, h2, h3, h4, h5⟩ := first_get hc hv
  have hl : w.length = (q.s2 - q.s0) * (q.s3 - q.s1) := by rw [hw]; exact frameNow_length hv
  rcases hp : readerPath c.root q.component .frame [q.s0, q.s1, q.s2, q.s3] with _ | dir
  · rw [frameNow_eq, hp] at hv; cases hv
  · obtain ⟨h5, h6⟩ := h5 dir hp
    refine ⟨by rw [h1], ?_, ?_⟩
    · simp only [sessionAfter, sessionStep, h1, h2, List.set_cons_zero]
      obtain ⟨a, s', e1, e2, -⟩ := cached_get (fs := fs) hc hne hl hp (s := { s with heap := [w] })
        (by simp only [dsRange, h5]; exact h6) (Or.inl ⟨0, h3, rfl⟩)
      unfold sessionValue
      rw [e1]
      exact e2
    · simp only [sessionAfter, sessionStep, h1, h2, List.set_cons_zero]
      obtain ⟨a, s', e1, e2, e3⟩ := cached_get (fs := fs) hc hne hl hp (s := { s with heap := [w] })
        (by simp only [dsRange, h5]; exact h6) (Or.inl ⟨0, h3, rfl⟩)
      rw [e1]
      obtain ⟨b, s'', f1, f2, -⟩ := cached_get (fs := fs) hc hne hl hp
        (s := { s' with memory := fun _ => none, ranges := fun _ => none })
        (by simp only [dsRange]; exact h6) (Or.inr ⟨rfl, e3⟩)
      unfold sessionValue
      dsimp only at f1 f2 ⊢
      rw [f1]
      exact f2

/-- **C86 violated: a new run.** With the cache on a frame that was read once is given for every later run in the same
directory that has as many files, in this process and in new ones. -/
theorem C86_rerun_violated (c : ReaderCfg) (hc : c.use_cache = true) (fs fs' : OutFS) (q : FrameReq) (v : List ℝ)
    (hv : frameNow c fs q = some v) (hne : v ≠ []) (hfs : ∀ dir, fileRange fs' dir = fileRange fs dir) :
    sessionValue c q (sessionAfter c [.get q, .files fs', .restart] (fs, .fresh)) = some v := by
  obtain ⟨s, h1, h2, h3, h4, h5⟩ := first_get hc hv
  have hl := frameNow_length hv
  rcases hp : readerPath c.root q.component .frame [q.s0, q.s1, q.s2, q.s3] with _ | dir
  · rw [frameNow_eq, hp] at hv; cases hv
  · obtain ⟨-, h6⟩ := h5 dir hp
    simp only [sessionAfter, sessionStep, h1]
    obtain ⟨b, s'', f1, f2, -⟩ := cached_get (fs := fs') hc hne hl hp
      (s := { s with memory := fun _ => none, ranges := fun _ => none })
      (by simp only [dsRange, hfs]; exact h6) (Or.inr ⟨rfl, h4⟩)
    unfold sessionValue
    dsimp only at f1 f2 ⊢
    rw [f1]
    exact f2

/-- **C86 violated: a run in progress.** The number of files is counted once.  A frame past the files that were there at the
first read of the component is refused, cache or not, however often it is asked for, although it is in the files. -/
theorem C86_growing_violated (c : ReaderCfg) (fs fs' : OutFS) (p q : FrameReq) (dir : List Char)
    (hp : readerPath c.root p.component .frame [p.s0, p.s1, p.s2, p.s3] = some dir)
    (hq : readerPath c.root q.component .frame [q.s0, q.s1, q.s2, q.s3] = some dir)
    (hn : fileRange fs dir * c.fpds ≤ q.number) (k : ℕ) :
    sessionValue c q (sessionAfter c ([.get p, .files fs'] ++ List.replicate k (.get q)) (fs, .fresh)) = none := by
  have hr : (sessionFrame c fs p .fresh).2.ranges dir = some (fileRange fs dir) := by
    have hu : ∀ (key : List Char) (a : ℕ) (s : ReaderState), (updateCache key a s).ranges = s.ranges := fun _ _ _ => rfl
    have ha : ∀ (s : ReaderState) (v : List ℝ), (s.alloc v).2.ranges = s.ranges := fun _ _ => rfl
    have hg : ∀ (key : List Char) (s : ReaderState), (getCache key s).2.ranges = s.ranges := by
      intro key s
      unfold getCache
      rcases s.memory key with _ | a
      · rcases s.disk key with _ | v <;> rfl
      · rfl
    have hd : (dsRange fs dir .fresh).2.ranges dir = some (fileRange fs dir) := by
      simp [dsRange, ReaderState.fresh]
    unfold sessionFrame
    rw [hp]
    simp only
    split_ifs with h1 h2
    · exact hd
    · split
      · split_ifs
        · rw [hu, hg]; exact hd
        · rw [hg]; exact hd
      · split
        · rw [hg]; exact hd
        · rw [hu, ha, hg]; exact hd
    · split
      · split_ifs <;> exact hd
      · split
        · exact hd
        · exact hd
  have hstay : ∀ s : ReaderState, s.ranges dir = some (fileRange fs dir) → sessionFrame c fs' q s = (none, s) := by
    intro s hs
    unfold sessionFrame
    rw [hq]
    have e : dsRange fs' dir s = (fileRange fs dir, s) := by
      unfold dsRange
      rw [hs]
    simp only [e, if_pos hn]
  rw [sessionAfter_append]
  simp only [sessionAfter, sessionStep]
  obtain ⟨s, hs⟩ : ∃ s, s = (sessionFrame c fs p .fresh).2 := ⟨_, rfl⟩
  rw [← hs] at hr ⊢
  clear hs
  induction k with
  | zero =>
    simp only [List.replicate_zero, sessionAfter]
    unfold sessionValue
    rw [hstay s hr]
    rfl
  | succ k ih =>
    rw [List.replicate_succ, sessionAfter, sessionStep, hstay s hr]
    exact ih

/-! ## Cases -/

/-- The directory of the frames -/
def sessionDir : List Char := ['d', '/', 'E', '/', 'f', 'r', 'a', 'm', 'e', '_', '0', ':', '0', '_', '1', ':', '1']

/-- `n` files, each with one frame of one number -/
noncomputable def sessionFs (n : ℕ) (x : ℝ) : OutFS := fun path =>
  open Classical in if ∃ k < n, path = sessionDir ++ '/' :: (dec k ++ ['.', 'd', 'a', 't']) then some [x] else none

theorem last_name {u v p r : List Char} (hp : '/' ∉ p) (hr : '/' ∉ r) (h : u ++ '/' :: p = v ++ '/' :: r) : p = r := by
  have h' := congrArg List.reverse h
  simp only [List.reverse_append, List.reverse_cons, List.append_assoc, List.singleton_append] at h'
  have t : ∀ (p u : List Char), '/' ∉ p → (p.reverse ++ '/' :: u).takeWhile (· ≠ '/') = p.reverse := by
    intro p u hp
    rw [List.takeWhile_append_of_pos]
    · simp
    · intro c hc
      have : c ≠ '/' := fun e => hp (e ▸ List.mem_reverse.1 hc)
      simpa using this
  have := congrArg (List.takeWhile (· ≠ '/')) h'
  rw [t p _ hp, t r _ hr] at this
  exact List.reverse_injective this

theorem dat_no_slash (k : ℕ) : '/' ∉ dec k ++ ['.', 'd', 'a', 't'] := by
  intro hm
  rcases List.mem_append.1 hm with hm | hm
  · have := dec_digits k _ hm
    revert this; decide
  · revert hm; decide

theorem sessionFs_name {n : ℕ} {x : ℝ} {dir name : List Char} (h1 : '/' ∉ name)
    (h3 : sessionFs n x (dir ++ '/' :: name) ≠ none) : ∃ k < n, name = dec k ++ ['.', 'd', 'a', 't'] := by
  unfold sessionFs at h3
  split_ifs at h3 with h
  · obtain ⟨k, hk, he⟩ := h
    exact ⟨k, hk, last_name h1 (dat_no_slash k) he⟩
  · exact absurd rfl h3

theorem sessionFs_finite (n : ℕ) (x : ℝ) : FiniteDirs (sessionFs n x) := by
  intro dir
  apply Set.Finite.subset (s := (fun k => dec k ++ ['.', 'd', 'a', 't']) '' (Finset.range n : Set ℕ))
    ((Finset.finite_toSet _).image _)
  rintro name ⟨h1, -, h3⟩
  obtain ⟨k, hk, rfl⟩ := sessionFs_name h1 h3
  exact ⟨k, by simpa using hk, rfl⟩

theorem sessionFs_range (n : ℕ) (x : ℝ) : fileRange (sessionFs n x) sessionDir = n := by
  have : {name | '/' ∉ name ∧ dataName name ∧ sessionFs n x (sessionDir ++ '/' :: name) ≠ none}
      = (fun k => dec k ++ ['.', 'd', 'a', 't']) '' (Finset.range n : Set ℕ) := by
    ext name
    constructor
    · rintro ⟨h1, -, h3⟩
      obtain ⟨k, hk, rfl⟩ := sessionFs_name h1 h3
      exact ⟨k, by simpa using hk, rfl⟩
    · rintro ⟨k, hk, rfl⟩
      refine ⟨dat_no_slash k, by simpa using dataName_dec k [], ?_⟩
      unfold sessionFs
      rw [if_pos ⟨k, by simpa using hk, rfl⟩]
      exact Option.some_ne_none _
  unfold fileRange
  rw [this, Set.ncard_image_of_injective _ datName_injective, Set.ncard_coe_finset, Finset.card_range]

theorem sessionFs_grows {m n : ℕ} (h : m ≤ n) (x : ℝ) : Grows (sessionFs m x) (sessionFs n x) := by
  intro p d hd
  unfold sessionFs at hd ⊢
  split_ifs at hd with hk
  obtain ⟨k, h1, h2⟩ := hk
  rw [if_pos ⟨k, by omega, h2⟩]
  exact ⟨[], by rw [List.append_nil]; exact hd⟩

/-- the request for frame `k` -/
def sessionReq (k : ℕ) : FrameReq := ⟨['E'], 0, 0, 1, 1, k⟩

theorem session_path (k : ℕ) (b : Bool) : readerPath (ReaderCfg.root ⟨['d'], 1, b⟩) (sessionReq k).component .frame
    [(sessionReq k).s0, (sessionReq k).s1, (sessionReq k).s2, (sessionReq k).s3] = some sessionDir := by
  show readerPath ['d'] ['E'] .frame [0, 0, 1, 1] = _
  decide

theorem sessionFs_frame {n k : ℕ} (h : k < n) (x : ℝ) (b : Bool) :
    frameNow ⟨['d'], 1, b⟩ (sessionFs n x) (sessionReq k) = some [x] := by
  rw [frameNow_eq, session_path, Option.bind_some, sessionFs_range]
  have e : sessionFs n x (sessionDir ++ '/' :: (dec k ++ ['.', 'd', 'a', 't'])) = some [x] := by
    unfold sessionFs
    rw [if_pos ⟨k, h, rfl⟩]
  rw [if_neg (by simp only [sessionReq]; omega)]
  unfold readFrame
  simp only [sessionReq, Nat.div_one, Nat.mod_one]
  rw [if_neg (by omega), e]
  rfl

/-- A growing history with a restart, and what the reader gives after it -/
example : Growing ⟨['d'], 1, true⟩ (sessionFs 1 5) ([.get (sessionReq 0), .files (sessionFs 2 5)] ++ .restart ::
      [.get (sessionReq 0)]) ∧
    sessionValue ⟨['d'], 1, true⟩ (sessionReq 1) (sessionAfter ⟨['d'], 1, true⟩ ([.get (sessionReq 0),
      .files (sessionFs 2 5)] ++ .restart :: [.get (sessionReq 0)]) (sessionFs 1 5, .fresh)) = some [5] := by
  have h : Growing ⟨['d'], 1, true⟩ (sessionFs 1 5) ([.get (sessionReq 0), .files (sessionFs 2 5)] ++ .restart ::
      [.get (sessionReq 0)]) :=
    ⟨sessionFs_grows (by decide) 5, sessionFs_finite 2 5, trivial⟩
  refine ⟨h, ?_⟩
  rw [C86_complete_partial _ _ _ _ h (by intro e he; rw [List.mem_singleton.1 he]; trivial)]
  exact sessionFs_frame (by decide) 5 true

/-- The hypotheses of the violations: the second run has other numbers; frame 1 is in the files when it is refused. -/
example : frameNow ⟨['d'], 1, true⟩ (sessionFs 1 5) (sessionReq 0) = some [5] ∧
    frameNow ⟨['d'], 1, true⟩ (sessionFs 1 7) (sessionReq 0) = some [7] ∧
    (∀ dir, fileRange (sessionFs 1 7) dir = fileRange (sessionFs 1 5) dir) ∧
    fileRange (sessionFs 1 5) sessionDir * 1 ≤ (sessionReq 1).number ∧
    frameNow ⟨['d'], 1, false⟩ (sessionFs 2 5) (sessionReq 1) = some [5] := by
  refine ⟨sessionFs_frame (by decide) 5 true, sessionFs_frame (by decide) 7 true, fun dir => ?_, ?_,
    sessionFs_frame (by decide) 5 false⟩
  · unfold fileRange
    congr 1
    ext name
    have : sessionFs 1 7 (dir ++ '/' :: name) ≠ none ↔ sessionFs 1 5 (dir ++ '/' :: name) ≠ none := by
      unfold sessionFs
      split_ifs <;> simp
    simp only [Set.mem_ofPred_eq, this]
  · rw [sessionFs_range]
    decide

end Verif
