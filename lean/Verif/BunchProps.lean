import Verif.Bunch
import Verif.DepositProps

/-!
# Properties of beam injection (C29, C30, C53)
-/

namespace Verif

/-! ## C29: injection -/

/-- the injection loop in closed form -/
theorem inject_fold (G : Geom) (B : BunchCfg) (dt : ℝ) (rand : ℕ → ℝ) (start : ℤ) (h0 : 0 ≤ start)
    (order : List ℕ) (hn : order.Nodup) (ps : ℕ → Particle) (m : ℕ) :
    (order.foldl (injectIter G B dt rand start) ps) m =
      if m < B.number ∧ start ≤ m ∧ (m - start.toNat) ∈ order then
        injectOne G B dt (rand (m - start.toNat)) (ps m) else ps m := by
  obtain ⟨s, rfl⟩ := Int.eq_ofNat_of_zero_le h0
  induction order generalizing ps with
  | nil => simp
  | cons k l ih =>
    obtain ⟨hk, hl⟩ := List.nodup_cons.1 hn
    rw [List.foldl_cons, ih hl]
    have e : injectIter G B dt rand s ps k m = if m < B.number ∧ m = k + s then
        injectOne G B dt (rand k) (ps m) else ps m := by
      unfold injectIter
      have e1 : ((k : ℤ) + (s : ℤ)).toNat = k + s := by omega
      rw [e1]
      by_cases c : k + s < B.number
      · rw [if_pos (by constructor <;> omega)]
        by_cases c2 : m = k + s
        · rw [if_pos ⟨by omega, c2⟩, c2, Function.update_self]
        · rw [if_neg (by tauto), Function.update_of_ne c2]
      · rw [if_neg (by omega), if_neg (by omega)]
    rw [e]
    simp only [Int.toNat_natCast, List.mem_cons]
    by_cases c1 : m < B.number ∧ m = k + s
    · have c2 : m - s = k := by omega
      rw [if_neg (by rw [c2]; tauto), if_pos c1, if_pos ⟨c1.1, by omega, Or.inl c2⟩, c2]
    · rw [if_neg c1]
      by_cases c3 : m < B.number ∧ (s : ℤ) ≤ m ∧ m - s ∈ l
      · rw [if_pos c3, if_pos ⟨c3.1, c3.2.1, Or.inr c3.2.2⟩]
      · rw [if_neg c3, if_neg]
        rintro ⟨d1, d2, d3 | d3⟩
        · exact c1 ⟨d1, by omega⟩
        · exact c3 ⟨d1, d2, d3⟩

/-- The step at time `t` may turn particle `i` of the bunch from dead to alive. -/
def Injects (G : Geom) (B : BunchCfg) (bn : ℕ) (t dt : ℝ) (i : ℕ) : Prop :=
  ∃ ps ps', Inject G B bn t dt ps (some ps') ∧ (ps i).alive = false ∧ (ps' i).alive = true

/-- number of macroparticles per step -/
noncomputable def perStep (B : BunchCfg) (dt : ℝ) : ℕ := B.number / ⌈B.duration / dt⌉.toNat

theorem truncZ_nonneg {x : ℝ} (h : 0 ≤ x) : truncZ x = ⌊x⌋ := if_pos h

/-- Effect of one call, in closed form. -/
theorem inject_effect {G : Geom} {B : BunchCfg} {bn : ℕ} {t dt : ℝ} (hdt : 0 < dt)
    {ps ps' : ℕ → Particle} (h : Inject G B bn t dt ps (some ps')) (m : ℕ) :
    ∃ u, 0 ≤ u ∧ u < 1 ∧ ps' m = if (B.begin bn ≤ t ∧ t < B.finish bn) ∧ m < B.number ∧
      ⌊(t - B.begin bn) / dt * perStep B dt⌋ ≤ m ∧
      (m : ℤ) < ⌊(t - B.begin bn) / dt * perStep B dt⌋ + perStep B dt
      then injectOne G B dt u (ps m) else ps m := by
  cases h with
  | skip h hw => exact ⟨0, le_refl _, one_pos, by rw [if_neg]; tauto⟩
  | run rand order h hw hrand horder =>
    have h0 : 0 ≤ (t - B.begin bn) / dt * (perStep B dt : ℝ) := by
      have : 0 ≤ t - B.begin bn := by linarith [hw.1]
      positivity
    have hn : order.Nodup := horder.nodup_iff.2 List.nodup_range
    have hmem : ∀ x, x ∈ order ↔ x < perStep B dt := by
      intro x; rw [horder.mem_iff, List.mem_range]; rfl
    have e : truncZ ((t - B.begin bn) / dt * (B.number / ⌈B.duration / dt⌉.toNat : ℕ))
        = ⌊(t - B.begin bn) / dt * perStep B dt⌋ := truncZ_nonneg h0
    have hs : 0 ≤ ⌊(t - B.begin bn) / dt * perStep B dt⌋ := Int.floor_nonneg.2 h0
    rw [e]
    generalize ⌊(t - B.begin bn) / dt * perStep B dt⌋ = S at *
    refine ⟨rand (m - S.toNat), (hrand _).1, (hrand _).2, ?_⟩
    rw [inject_fold G B dt rand S hs order hn ps m]
    refine if_congr ?_ rfl rfl
    rw [hmem]
    constructor
    · rintro ⟨a, b, c⟩; exact ⟨⟨hw.1, hw.2⟩, a, b, by omega⟩
    · rintro ⟨-, a, b, c⟩; exact ⟨a, b, by omega⟩

theorem steps_pos {B : BunchCfg} {dt : ℝ} (hdt : 0 < dt) (hd : 0 < B.duration) :
    0 < ⌈B.duration / dt⌉ := Int.ceil_pos.2 (div_pos hd hdt)

/-- A call always has an outcome, and the only failure is a zero duration. -/
theorem inject_total (G : Geom) (B : BunchCfg) (bn : ℕ) (t dt : ℝ) (hdt : 0 < dt) (hd : 0 < B.duration)
    (ps : ℕ → Particle) : (∃ ps', Inject G B bn t dt ps (some ps')) ∧ ¬ Inject G B bn t dt ps none := by
  have h := steps_pos hdt hd
  constructor
  · by_cases hw : t ≥ B.begin bn ∧ t < B.finish bn
    · exact ⟨_, Inject.run ps (fun _ => 0) _ h.ne' hw (fun _ => ⟨le_refl _, one_pos⟩) (List.Perm.refl _)⟩
    · exact ⟨_, Inject.skip ps h.ne' hw⟩
  · intro h'
    cases h' with
    | divZero h0 => omega

/-- Which particles a step makes alive. -/
theorem injects_iff (G : Geom) (B : BunchCfg) (bn : ℕ) (t dt : ℝ) (hdt : 0 < dt) (hd : 0 < B.duration)
    (m : ℕ) : Injects G B bn t dt m ↔ (B.begin bn ≤ t ∧ t < B.finish bn) ∧ m < B.number ∧
      ⌊(t - B.begin bn) / dt * perStep B dt⌋ ≤ m ∧
      (m : ℤ) < ⌊(t - B.begin bn) / dt * perStep B dt⌋ + perStep B dt := by
  constructor
  · rintro ⟨ps, ps', h, h0, h1⟩
    obtain ⟨u, -, -, e⟩ := inject_effect hdt h m
    by_contra hc
    rw [if_neg hc] at e
    rw [e, h0] at h1
    cases h1
  · intro hc
    let p : Particle := ⟨false, ⟨0, 0, 0⟩, ⟨0, 0, 0⟩, ⟨0, 0, 0⟩, 0, 0, 0, 0⟩
    obtain ⟨ps', h⟩ := (inject_total G B bn t dt hdt hd (fun _ => p)).1
    obtain ⟨u, -, -, e⟩ := inject_effect hdt h m
    rw [if_pos hc] at e
    exact ⟨_, ps', h, rfl, by rw [e]; rfl⟩

/-- **C29** What injection does, for every call: a particle is either untouched, or put at the entry
plane (within one step's flight of half a cell) with the prescribed axial velocity, alive, with its
radius, transverse velocity, charge and mass unchanged; it is touched only inside the bunch's window. -/
theorem C29_effect (G : Geom) (B : BunchCfg) (bn : ℕ) (t dt : ℝ) (hdt : 0 < dt) (hv : 0 ≤ B.velocity)
    (ps ps' : ℕ → Particle) (h : Inject G B bn t dt ps (some ps')) (m : ℕ) :
    ps' m = ps m ∨
      ((B.duration + B.hole_duration) * bn ≤ t ∧ t < (B.duration + B.hole_duration) * bn + B.duration ∧
        m < B.number ∧ (ps' m).alive = true ∧
        G.dz / 2 ≤ (ps' m).pos.c2 ∧ (ps' m).pos.c2 ≤ G.dz / 2 + B.velocity * dt ∧
        (ps' m).vel.c2 = B.velocity ∧ (ps' m).pos.c0 = (ps m).pos.c0 ∧ (ps' m).pos.c1 = (ps m).pos.c1 ∧
        (ps' m).vel.c0 = (ps m).vel.c0 ∧ (ps' m).vel.c1 = (ps m).vel.c1 ∧
        (ps' m).charge = (ps m).charge ∧ (ps' m).mass = (ps m).mass) := by
  obtain ⟨u, u0, u1, e⟩ := inject_effect hdt h m
  by_cases hc : (B.begin bn ≤ t ∧ t < B.finish bn) ∧ m < B.number ∧
      ⌊(t - B.begin bn) / dt * perStep B dt⌋ ≤ m ∧
      (m : ℤ) < ⌊(t - B.begin bn) / dt * perStep B dt⌋ + perStep B dt
  · right
    rw [if_pos hc] at e
    have hb : B.begin bn = (B.duration + B.hole_duration) * bn := by unfold BunchCfg.begin; ring
    have hf : B.finish bn = (B.duration + B.hole_duration) * bn + B.duration := by
      unfold BunchCfg.finish; rw [hb]
    rw [hb, hf] at hc
    have hvt : 0 ≤ B.velocity * dt := by positivity
    refine ⟨hc.1.1, hc.1.2, hc.2.1, ?_, ?_, ?_, ?_, ?_, ?_, ?_, ?_, ?_, ?_⟩ <;>
      rw [e] <;> simp only [injectOne]
    · nlinarith
    · nlinarith
  · left; rw [if_neg hc] at e; exact e

theorem floor_shift (x : ℝ) (a k : ℕ) : ⌊(x + a) * (k : ℝ)⌋ = ⌊x * k⌋ + (a * k : ℕ) := by
  have : (x + a) * (k : ℝ) = x * k + ((a * k : ℕ) : ℝ) := by push_cast; ring
  rw [this, Int.floor_add_natCast]

/-- **C29** No macroparticle is made alive in two different steps, for any number of macroparticles,
duration, time step and start time. -/
theorem C29_at_most_once (G : Geom) (B : BunchCfg) (bn : ℕ) (t0 dt : ℝ) (hdt : 0 < dt)
    (hd : 0 < B.duration) (i j k : ℕ) (hj : Injects G B bn (t0 + j * dt) dt i)
    (hk : Injects G B bn (t0 + k * dt) dt i) : j = k := by
  rw [injects_iff _ _ _ _ _ hdt hd] at hj hk
  wlog hlt : j < k generalizing j k
  · rcases Nat.lt_trichotomy j k with h | h | h
    · exact absurd h hlt
    · exact h
    · exact (this k j hk hj h).symm
  exfalso
  obtain ⟨a, rfl⟩ := Nat.exists_eq_add_of_lt hlt
  have e : (t0 + ((j + a + 1 : ℕ) : ℝ) * dt - B.begin bn) / dt
      = (t0 + j * dt - B.begin bn) / dt + ((a + 1 : ℕ) : ℝ) := by
    push_cast; field_simp; ring
  rw [e, floor_shift] at hk
  have h1 := hj.2.2.2
  have h2 := hk.2.2.1
  have : perStep B dt ≤ (a + 1) * perStep B dt := Nat.le_mul_of_pos_left _ (by omega)
  have h3 : ((perStep B dt : ℕ) : ℤ) ≤ (((a + 1) * perStep B dt : ℕ) : ℤ) := by exact_mod_cast this
  linarith

/-- **C29 (partial)** If the bunch begins exactly at a step and the number of macroparticles is a
multiple of the number of steps of the injection, each macroparticle is injected in exactly one
step.  Missing: other bunches leave macroparticles out, see `C29_leftover_violated` and
`C29_off_step_violated`. -/
theorem C29_exactly_once_partial (G : Geom) (B : BunchCfg) (bn : ℕ) (t0 dt : ℝ) (hdt : 0 < dt)
    (hd : 0 < B.duration) (j0 : ℕ) (hj0 : t0 + j0 * dt = (B.duration + B.hole_duration) * bn)
    (hdvd : ⌈B.duration / dt⌉.toNat ∣ B.number) (i : ℕ) (hi : i < B.number) :
    ∃! j : ℕ, Injects G B bn (t0 + j * dt) dt i := by
  have hs := steps_pos hdt hd
  obtain ⟨q, hq⟩ := hdvd
  have hb : B.begin bn = t0 + j0 * dt := by rw [hj0]; unfold BunchCfg.begin; ring
  set S := ⌈B.duration / dt⌉.toNat with hS
  have hS0 : 0 < S := by omega
  have hP : perStep B dt = q := by unfold perStep; rw [← hS, hq, Nat.mul_div_cancel_left _ hS0]
  have hq0 : 0 < q := by
    rcases Nat.eq_zero_or_pos q with h | h
    · rw [h] at hq; omega
    · exact h
  have ex : Injects G B bn (t0 + ((j0 + i / q : ℕ) : ℝ) * dt) dt i := by
    rw [injects_iff _ _ _ _ _ hdt hd, hb, hP]
    have e : (t0 + ((j0 + i / q : ℕ) : ℝ) * dt - (t0 + j0 * dt)) / dt = ((i / q : ℕ) : ℝ) := by
      push_cast; field_simp; ring
    have hx : (((i / q : ℕ) : ℝ) * q) = ((i / q * q : ℕ) : ℝ) := by push_cast; ring
    rw [e, hx, Int.floor_natCast]
    refine ⟨⟨?_, ?_⟩, hi, ?_, ?_⟩
    · push_cast
      have : 0 ≤ ((i / q : ℕ) : ℝ) * dt := by positivity
      linarith
    · unfold BunchCfg.finish
      rw [hb]
      have h1 : i / q < S := Nat.div_lt_of_lt_mul (by rw [hq] at hi; linarith [Nat.mul_comm S q])
      have h2 : ((i / q : ℕ) : ℤ) < ⌈B.duration / dt⌉ := by omega
      have h3 := Int.lt_ceil.1 h2
      rw [lt_div_iff₀ hdt] at h3
      rw [Int.cast_natCast] at h3
      rw [Nat.cast_add]
      linarith
    · have := Nat.div_mul_le_self i q
      exact_mod_cast this
    · have := Nat.lt_div_mul_add hq0 (a := i)
      exact_mod_cast this
  exact ⟨_, ex, fun j hj => C29_at_most_once G B bn t0 dt hdt hd i _ _ hj ex⟩

/-- **C29** fails whenever the number of steps of the injection does not divide the number of
macroparticles of a bunch beginning at a step: the last macroparticle is never injected. -/
theorem C29_leftover_violated (G : Geom) (B : BunchCfg) (bn : ℕ) (t0 dt : ℝ) (hdt : 0 < dt)
    (hd : 0 < B.duration) (j0 : ℕ) (hj0 : t0 + j0 * dt = (B.duration + B.hole_duration) * bn)
    (hdvd : ¬ ⌈B.duration / dt⌉.toNat ∣ B.number) (j : ℕ) :
    0 < B.number ∧ ¬ Injects G B bn (t0 + j * dt) dt (B.number - 1) := by
  have hs := steps_pos hdt hd
  have hb : B.begin bn = t0 + j0 * dt := by rw [hj0]; unfold BunchCfg.begin; ring
  set S := ⌈B.duration / dt⌉.toNat with hS
  have hn : 0 < B.number := Nat.pos_of_ne_zero (fun h => hdvd (by rw [h]; exact dvd_zero _))
  refine ⟨hn, ?_⟩
  rw [injects_iff _ _ _ _ _ hdt hd]
  rintro ⟨⟨h1, h2⟩, -, h3, h4⟩
  unfold BunchCfg.finish at h2
  rw [hb] at h1 h2 h3 h4
  have hj : j0 ≤ j := by
    have : (j0 : ℝ) * dt ≤ j * dt := by linarith
    exact_mod_cast le_of_mul_le_mul_right this hdt
  obtain ⟨a, rfl⟩ := Nat.exists_eq_add_of_le hj
  have e : (t0 + ((j0 + a : ℕ) : ℝ) * dt - (t0 + j0 * dt)) / dt = (a : ℝ) := by
    push_cast; field_simp; ring
  have hx : ((a : ℝ) * perStep B dt) = ((a * perStep B dt : ℕ) : ℝ) := by push_cast; ring
  rw [e, hx, Int.floor_natCast] at h4
  have ha : a < S := by
    have : (a : ℝ) < B.duration / dt := by
      rw [lt_div_iff₀ hdt]; push_cast at h2; linarith
    have : (a : ℤ) < ⌈B.duration / dt⌉ := Int.lt_ceil.2 (by exact_mod_cast this)
    omega
  have hP : perStep B dt = B.number / S := rfl
  have h5 : B.number - 1 < a * perStep B dt + perStep B dt := by exact_mod_cast h4
  have h6 : (a + 1) * perStep B dt ≤ S * (B.number / S) := by rw [hP]; exact Nat.mul_le_mul_right _ ha
  have h7 : S * (B.number / S) < B.number := by
    have h8 := Nat.div_add_mod B.number S
    have h9 : B.number % S ≠ 0 := fun h => hdvd (Nat.dvd_of_mod_eq_zero h)
    omega
  have : (a + 1) * perStep B dt = a * perStep B dt + perStep B dt := by ring
  omega

/-- **C29** fails for a bunch whose beginning falls between two steps late enough: its first
macroparticle is never injected. `x` is the time from the beginning to the first step in the window,
in time steps. -/
theorem C29_off_step_violated (G : Geom) (B : BunchCfg) (bn : ℕ) (t0 dt : ℝ) (hdt : 0 < dt)
    (hd : 0 < B.duration) (j0 : ℕ) (x : ℝ) (hx0 : 0 < x) (hx1 : x < 1)
    (hj0 : t0 + j0 * dt = (B.duration + B.hole_duration) * bn + x * dt)
    (hlate : 1 ≤ x * (B.number / ⌈B.duration / dt⌉.toNat : ℕ)) (j : ℕ) :
    ¬ Injects G B bn (t0 + j * dt) dt 0 := by
  have hb : B.begin bn = t0 + j0 * dt - x * dt := by rw [hj0]; unfold BunchCfg.begin; ring
  rw [injects_iff _ _ _ _ _ hdt hd]
  rintro ⟨⟨h1, h2⟩, -, h3, h4⟩
  rw [hb] at h1 h3
  have hj : j0 ≤ j := by
    have h5 : ((j0 : ℝ) - x) * dt ≤ j * dt := by linarith
    have h6 : (j0 : ℝ) - x ≤ j := le_of_mul_le_mul_right h5 hdt
    have h7 : (j0 : ℝ) < ((j + 1 : ℕ) : ℝ) := by push_cast; linarith
    have : j0 < j + 1 := by exact_mod_cast h7
    omega
  obtain ⟨a, rfl⟩ := Nat.exists_eq_add_of_le hj
  have e : (t0 + ((j0 + a : ℕ) : ℝ) * dt - (t0 + j0 * dt - x * dt)) / dt = x + (a : ℝ) := by
    push_cast; field_simp; ring
  rw [e, floor_shift] at h3
  have : 1 ≤ ⌊x * (perStep B dt : ℝ)⌋ := Int.le_floor.2 (by exact_mod_cast hlate)
  have h8 : (0 : ℤ) ≤ ((a * perStep B dt : ℕ) : ℤ) := by positivity
  push_cast at h3 h8
  linarith

/-- A bunch of zero length divides by zero. -/
theorem C29_zero_duration_fails (G : Geom) (B : BunchCfg) (bn : ℕ) (t dt : ℝ)
    (hd : B.duration = 0) (ps : ℕ → Particle) : ∀ r, Inject G B bn t dt ps r → r = none := by
  intro r h
  have : ⌈B.duration / dt⌉ = 0 := by rw [hd]; simp
  cases h with
  | divZero => rfl
  | skip h _ => exact absurd this h
  | run _ _ h _ _ _ => exact absurd this h

/-- Not vacuous: 4 macroparticles over 2 steps; and 3 over 2 steps lose one; and 8 over 2 steps
beginning half a step early lose the first. -/
example : (⌈(2 : ℝ) / 1⌉.toNat ∣ 4) ∧ (¬ ⌈(2 : ℝ) / 1⌉.toNat ∣ 3) ∧
    (1 : ℝ) ≤ 1 / 2 * (8 / ⌈(2 : ℝ) / 1⌉.toNat : ℕ) := by
  have : ⌈(2 : ℝ) / 1⌉ = 2 := by norm_num
  have e : (2 : ℤ).toNat = 2 := rfl
  rw [this, e]
  norm_num

example (G : Geom) : ∃! j : ℕ, Injects G ⟨2, 1, 1, 4⟩ 1 (0 + j * 1) 1 3 := by
  refine C29_exactly_once_partial G ⟨2, 1, 1, 4⟩ 1 0 1 one_pos (by norm_num) 3 (by norm_num) ?_ 3 (by norm_num)
  have : ⌈(2 : ℝ) / 1⌉ = 2 := by norm_num
  have e : (2 : ℤ).toNat = 2 := rfl
  simp only [this, e]; norm_num

/-! ## C30: the bunch train -/

theorem injectAll_numbers {G : Geom} {B : BunchCfg} {t dt : ℝ} {l l' : List BunchObj}
    (h : InjectAll G B t dt l (some l')) :
    l'.map BunchObj.bunch_number = l.map BunchObj.bunch_number := by
  generalize hr : some l' = r at h
  induction h generalizing l' with
  | nil => cases hr; rfl
  | fail => cases hr
  | failTail => cases hr
  | cons b bs ps bs' h ht ih => cases hr; simp [ih rfl]

theorem initBeam_create {G : Geom} {C : BeamCfg} {t dt : ℝ} {s s' : BeamState}
    (h : InitBeam G C t dt s (some s')) : ∃ fresh, s'.current = (create C t fresh s).current ∧
      s'.bunches.map BunchObj.bunch_number = (create C t fresh s).bunches.map BunchObj.bunch_number := by
  cases h with
  | ok fresh bs hf h hi => exact ⟨fresh, rfl, injectAll_numbers hi⟩

theorem create_current (C : BeamCfg) (t : ℝ) (fresh : ℕ → Particle) (s : BeamState) :
    (create C t fresh s).current = if t ≥ s.current * (C.duration + C.hole_duration) ∧
      s.current < C.number_bunches then s.current + 1 else s.current := by
  unfold create; split_ifs <;> rfl

theorem create_numbers (C : BeamCfg) (t : ℝ) (fresh : ℕ → Particle) (s : BeamState)
    (h : s.bunches.map BunchObj.bunch_number = List.range s.current) :
    (create C t fresh s).bunches.map BunchObj.bunch_number
      = List.range (create C t fresh s).current := by
  unfold create
  split_ifs
  · simp [h, List.range_succ]
  · exact h

/-- **C30** A step creates at most one bunch and removes none. -/
theorem C30_one_per_step (G : Geom) (C : BeamCfg) (t dt : ℝ) (s s' : BeamState)
    (h : InitBeam G C t dt s (some s')) :
    s'.bunches.length = s.bunches.length ∨ s'.bunches.length = s.bunches.length + 1 := by
  obtain ⟨fresh, -, h2⟩ := initBeam_create h
  have : s'.bunches.length = (create C t fresh s).bunches.length := by
    simpa using congrArg List.length h2
  rw [this]
  unfold create
  split_ifs <;> simp

theorem beamRun_numbers {G : Geom} {C : BeamCfg} {t0 dt : ℝ} {j : ℕ} {s : BeamState}
    (h : BeamRun G C t0 dt j s) :
    s.bunches.map BunchObj.bunch_number = List.range s.current := by
  induction h with
  | start => rfl
  | step j s s' s'' h hi hc hb ih =>
    obtain ⟨fresh, h1, h2⟩ := initBeam_create hi
    rw [hb, h2, hc, h1]
    exact create_numbers C _ fresh s ih

/-- **C30** After the step at time `t_j = t0 + j·dt` bunch `n` exists if and only if it belongs to the
train, at least `n+1` steps have been done, and `t_j` has reached `n` times (duration plus gap).  So
it was created at the first such step. -/
theorem C30_schedule (G : Geom) (C : BeamCfg) (t0 dt : ℝ) (ht0 : 0 ≤ t0) (hdt : 0 < dt)
    (hP : 0 < C.duration + C.hole_duration) (j : ℕ) (s : BeamState)
    (h : BeamRun G C t0 dt (j + 1) s) (n : ℕ) :
    (∃ b ∈ s.bunches, b.bunch_number = n) ↔
      n < C.number_bunches ∧ n ≤ j ∧ n * (C.duration + C.hole_duration) ≤ t0 + j * dt := by
  have e : (∃ b ∈ s.bunches, b.bunch_number = n) ↔ n < s.current := by
    have := beamRun_numbers h
    rw [← List.mem_range, ← this, List.mem_map]
  rw [e]
  clear e
  set P := C.duration + C.hole_duration with hPdef
  -- the count, for every number of steps
  have key : ∀ j s, BeamRun G C t0 dt j s → ∀ n : ℕ, n < s.current ↔
      n < C.number_bunches ∧ n < j ∧ n * P ≤ t0 + ((j : ℝ) - 1) * dt := by
    intro j s h
    induction h with
    | start => intro n; simp
    | step j s s' s'' h hi hc hb ih =>
      intro n
      obtain ⟨fresh, h1, h2⟩ := initBeam_create hi
      rw [hc, h1, create_current, ← hPdef]
      have cast : ((j + 1 : ℕ) : ℝ) - 1 = j := by push_cast; ring
      rw [cast]
      have ihn := ih n
      have ihc := ih s.current
      simp only [lt_irrefl, false_iff] at ihc
      have mono : ∀ m : ℕ, m * P ≤ t0 + ((j : ℝ) - 1) * dt → m * P ≤ t0 + (j : ℝ) * dt := by
        intro m hm; nlinarith
      -- a bunch number whose time has come is at most the current number
      have small : ∀ m : ℕ, m < C.number_bunches → m < j + 1 → m * P ≤ t0 + (j : ℝ) * dt →
          m ≤ s.current := by
        intro m m1 m2 m3
        by_contra hm
        push Not at hm
        -- then number current was possible one step earlier
        have hc1 : s.current < C.number_bunches := by omega
        have hc2 : s.current < j := by omega
        have hc3 : ¬ ((s.current : ℝ) * P ≤ t0 + ((j : ℝ) - 1) * dt) := fun h' => ihc ⟨hc1, hc2, h'⟩
        push Not at hc3
        have hm' : (s.current : ℝ) + 1 ≤ m := by exact_mod_cast hm
        have hPdt : P < dt := by nlinarith
        have hcj : (s.current : ℝ) ≤ (j : ℝ) - 1 := by
          have : (s.current : ℝ) + 1 ≤ j := by exact_mod_cast hc2
          linarith
        have h0 : (0 : ℝ) ≤ s.current := by positivity
        nlinarith
      split_ifs with hcr
      · constructor
        · intro hn
          rcases Nat.lt_or_ge n s.current with hlt | hge
          · obtain ⟨a, b, c⟩ := ihn.1 hlt
            exact ⟨a, by omega, mono n c⟩
          · have : n = s.current := by omega
            subst this
            refine ⟨hcr.2, ?_, hcr.1⟩
            rcases Nat.eq_zero_or_pos s.current with h0 | h0
            · omega
            · have := (ih (s.current - 1)).1 (by omega)
              omega
        · rintro ⟨a, b, c⟩
          have := small n a b c
          omega
      · constructor
        · intro hn
          obtain ⟨a, b, c⟩ := ihn.1 hn
          exact ⟨a, by omega, mono n c⟩
        · rintro ⟨a, b, c⟩
          have h1 := small n a b c
          rcases Nat.lt_or_ge n s.current with hlt | hge
          · exact hlt
          · have : n = s.current := by omega
            subst this
            exact absurd ⟨c, a⟩ hcr
  rw [key (j + 1) s h n]
  have cast : ((j + 1 : ℕ) : ℝ) - 1 = j := by push_cast; ring
  rw [cast]
  constructor
  · rintro ⟨a, b, c⟩; exact ⟨a, by omega, c⟩
  · rintro ⟨a, b, c⟩; exact ⟨a, by omega, c⟩

/-- **C30** In the usual case (the bunch period is at least one time step and the run starts before the
second bunch) the restriction to steps `≥ n` is void. -/
theorem C30_schedule_usual (G : Geom) (C : BeamCfg) (t0 dt : ℝ) (ht0 : 0 ≤ t0) (hdt : 0 < dt)
    (hP : dt ≤ C.duration + C.hole_duration) (ht1 : t0 < C.duration + C.hole_duration) (j : ℕ)
    (s : BeamState) (h : BeamRun G C t0 dt (j + 1) s) (n : ℕ) :
    (∃ b ∈ s.bunches, b.bunch_number = n) ↔
      n < C.number_bunches ∧ n * (C.duration + C.hole_duration) ≤ t0 + j * dt := by
  have hP0 : 0 < C.duration + C.hole_duration := by linarith
  rw [C30_schedule G C t0 dt ht0 hdt hP0 j s h n]
  constructor
  · rintro ⟨a, -, c⟩; exact ⟨a, c⟩
  · rintro ⟨a, c⟩
    refine ⟨a, ?_, c⟩
    have : (n : ℝ) * (C.duration + C.hole_duration) < ((j : ℝ) + 1) * (C.duration + C.hole_duration) := by
      have : (0 : ℝ) ≤ j := by positivity
      nlinarith
    have h1 := lt_of_mul_lt_mul_right this hP0.le
    have : n < j + 1 := by exact_mod_cast h1
    omega

/-! ## C53: removing finished bunches -/

theorem cleanup_none {G : Geom} {C : BeamCfg} {t : ℝ} {l : List BunchObj} {r : Option Unit}
    (h : Cleanup G C t l r) (b : BunchObj) (hb : b ∈ l)
    (hold : (b.bunch_number : ℝ) < eraseNumber G C t) (hdead : ∀ i < C.number, (b.ps i).alive = false) :
    r = none := by
  induction h with
  | nil => cases hb
  | young b' bs r h hr ih =>
    rcases List.mem_cons.1 hb with rfl | hb
    · exact absurd hold h
    · exact ih hb
  | alive b' bs r g h hs hr ih =>
    rcases List.mem_cons.1 hb with rfl | hb
    · exact absurd (fun i _ hi => hdead i hi) hs
    · exact ih hb
  | erase => rfl

/-- **C53** fails: with at least two bunches in memory, a bunch that is old enough and whose
particles are all dead makes the step fail (iterator used after it was invalidated), whatever the
uninitialised loop variable holds. -/
theorem C53_cleanup_violated (G : Geom) (C : BeamCfg) (t dt : ℝ) (s : BeamState)
    (h2 : s.bunches.length > 1) (b : BunchObj) (hb : b ∈ s.bunches)
    (hold : (b.bunch_number : ℝ) < eraseNumber G C t) (hdead : ∀ i < C.number, (b.ps i).alive = false)
    (r : Option BeamState) (h : InitBeam G C t dt s r) : r = none := by
  cases h with
  | cleanupFail => rfl
  | injectFail => rfl
  | ok fresh bs hf hc hi =>
    rcases hc with ⟨-, hc⟩ | ⟨hc, -⟩
    · have := cleanup_none hc b hb hold hdead
      cases this
    · exact absurd h2 hc

/-- **C53** fails also for bunches that are still alive: the uninitialised loop variable may skip the
scan, and then a bunch with live particles is removed. -/
theorem C53_live_bunch_removed_violated (G : Geom) (C : BeamCfg) (t dt : ℝ) (s : BeamState)
    (b : BunchObj) (bs : List BunchObj) (hs : s.bunches = b :: bs) (h2 : bs ≠ [])
    (hold : (b.bunch_number : ℝ) < eraseNumber G C t) : InitBeam G C t dt s none := by
  refine InitBeam.cleanupFail (Or.inl ⟨?_, ?_⟩)
  · rw [hs, List.length_cons]
    have := List.length_pos_of_ne_nil h2
    omega
  · rw [hs]
    exact Cleanup.erase b bs C.number hold (fun i h1 h2 => by omega)

/-- **C53 (partial)** While no bunch has passed the chamber, or only one bunch exists, the clean-up does
nothing and the step succeeds.  Missing: everything else, see above. -/
theorem C53_no_old_bunch_partial (G : Geom) (C : BeamCfg) (t dt : ℝ) (hdt : 0 < dt)
    (hd : 0 < C.duration) (s : BeamState)
    (hyoung : ∀ b ∈ s.bunches, eraseNumber G C t ≤ b.bunch_number) :
    (∃ s', InitBeam G C t dt s (some s')) ∧ ¬ InitBeam G C t dt s none := by
  have c1 : ∀ l : List BunchObj, (∀ b ∈ l, eraseNumber G C t ≤ b.bunch_number) →
      Cleanup G C t l (some ()) ∧ ¬ Cleanup G C t l none := by
    intro l
    induction l with
    | nil => exact fun _ => ⟨Cleanup.nil, fun h => by cases h⟩
    | cons b bs ih =>
      intro hl
      have hb := hl b List.mem_cons_self
      obtain ⟨i1, i2⟩ := ih (fun b' hb' => hl b' (List.mem_cons_of_mem _ hb'))
      refine ⟨Cleanup.young b bs _ (not_lt.2 hb) i1, ?_⟩
      intro h
      cases h with
      | young _ _ _ h hr => exact i2 hr
      | alive _ _ _ _ h => exact absurd h (not_lt.2 hb)
      | erase _ _ _ h => exact absurd h (not_lt.2 hb)
  have c2 : CleanupAll G C t s (some ()) ∧ ¬ CleanupAll G C t s none := by
    obtain ⟨i1, i2⟩ := c1 s.bunches hyoung
    constructor
    · by_cases h : s.bunches.length > 1
      · exact Or.inl ⟨h, i1⟩
      · exact Or.inr ⟨h, rfl⟩
    · rintro (⟨-, h⟩ | ⟨-, h⟩)
      · exact i2 h
      · cases h
  have c3 : ∀ l : List BunchObj, (∃ l', InjectAll G C.toBunchCfg t dt l (some l')) ∧
      ¬ InjectAll G C.toBunchCfg t dt l none := by
    intro l
    induction l with
    | nil => exact ⟨⟨[], InjectAll.nil⟩, fun h => by cases h⟩
    | cons b bs ih =>
      obtain ⟨⟨l', i1⟩, i2⟩ := ih
      obtain ⟨⟨ps, j1⟩, j2⟩ := inject_total G C.toBunchCfg b.bunch_number t dt hdt hd b.ps
      refine ⟨⟨_, InjectAll.cons b bs ps l' j1 i1⟩, ?_⟩
      intro h
      cases h with
      | fail _ _ h => exact j2 h
      | failTail _ _ _ _ h => exact i2 h
  let p : Particle := ⟨false, ⟨0, 0, 0⟩, ⟨0, 0, 0⟩, ⟨0, 0, 0⟩, 0, 0, 0, 0⟩
  obtain ⟨l', hl'⟩ := (c3 (create C t (fun _ => p) s).bunches).1
  refine ⟨⟨_, InitBeam.ok (fun _ => p) l' (fun _ => rfl) c2.1 hl'⟩, ?_⟩
  intro h
  cases h with
  | cleanupFail h => exact c2.2 h
  | injectFail fresh _ _ hi => exact (c3 _).2 hi

/-- Runs of the beam exist: with one bunch, for any number of steps. -/
theorem beamRun_exists (G : Geom) (C : BeamCfg) (t0 dt : ℝ) (hdt : 0 < dt) (hd : 0 < C.duration)
    (h1 : C.number_bunches ≤ 1) (j : ℕ) : ∃ s, BeamRun G C t0 dt j s := by
  induction j with
  | zero => exact ⟨_, BeamRun.start⟩
  | succ j ih =>
    obtain ⟨s, hs⟩ := ih
    have hn := beamRun_numbers hs
    have hcur : ∀ j s, BeamRun G C t0 dt j s → s.current ≤ C.number_bunches := by
      intro j s h
      induction h with
      | start => simp
      | step j s s' s'' h hi hc hb ih =>
        obtain ⟨fresh, h1, h2⟩ := initBeam_create hi
        rw [hc, h1, create_current]
        split_ifs with hh
        · exact hh.2
        · exact ih
    have hlen : ¬ s.bunches.length > 1 := by
      have := congrArg List.length hn
      simp at this
      have := hcur j s hs
      omega
    -- clean-up does not run
    have : ∃ s', InitBeam G C (t0 + j * dt) dt s (some s') := by
      have c3 : ∀ l : List BunchObj, (∃ l', InjectAll G C.toBunchCfg (t0 + j * dt) dt l (some l')) := by
        intro l
        induction l with
        | nil => exact ⟨[], InjectAll.nil⟩
        | cons b bs ih =>
          obtain ⟨l', i1⟩ := ih
          obtain ⟨⟨ps, j1⟩, j2⟩ := inject_total G C.toBunchCfg b.bunch_number (t0 + j * dt) dt hdt hd b.ps
          exact ⟨_, InjectAll.cons b bs ps l' j1 i1⟩
      let p : Particle := ⟨false, ⟨0, 0, 0⟩, ⟨0, 0, 0⟩, ⟨0, 0, 0⟩, 0, 0, 0, 0⟩
      obtain ⟨l', hl'⟩ := c3 (create C (t0 + j * dt) (fun _ => p) s).bunches
      exact ⟨_, InitBeam.ok (fun _ => p) l' (fun _ => rfl) (Or.inr ⟨hlen, rfl⟩) hl'⟩
    obtain ⟨s', hs'⟩ := this
    exact ⟨s', BeamRun.step j s s' s' hs hs' rfl rfl⟩

/-- Not vacuous: a run of 11 steps with a bunch in it. -/
example : ∃ s, BeamRun demoGeom ⟨⟨2, 1, 1, 4⟩, 1⟩ 0 1 11 s ∧ ∃ b ∈ s.bunches, b.bunch_number = 0 := by
  obtain ⟨s, hs⟩ := beamRun_exists demoGeom ⟨⟨2, 1, 1, 4⟩, 1⟩ 0 1 one_pos (by norm_num) (by norm_num) 11
  refine ⟨s, hs, ?_⟩
  rw [C30_schedule demoGeom ⟨⟨2, 1, 1, 4⟩, 1⟩ 0 1 (le_refl _) one_pos (by norm_num) 10 s hs 0]
  norm_num

/-- Not vacuous: at time 100 bunch 0 is old. -/
example : ((0 : ℕ) : ℝ) < eraseNumber demoGeom ⟨⟨2, 1, 1, 4⟩, 2⟩ 100 := by
  unfold eraseNumber demoGeom
  norm_num

end Verif
