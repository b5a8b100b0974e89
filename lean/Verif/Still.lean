import Verif.TimeSeries

/-!
# The notebooks of one time

Maps (tools/view_1_density_map.ipynb, tools/view_1_temperature_map.ipynb, tools/view_3_E_RHObeam_r_z_map.ipynb, tools/view_4_E_T_rho_map.ipynb) and profiles
(tools/view_1_density_profile.ipynb, tools/view_1_temperature_profile.ipynb, tools/view_1_density_longitudial_profile.ipynb) of one time.  The line numbers are those
of the notebook files.  An exception is `none`.  The data sets are read one after the other instead of probe by probe; only which of several exceptions comes first
depends on that.
-/

namespace Verif

/-- `get_frame` of `PlainReader` (tools/lib/plain_reader.py:342-364): data set, window, number of the frame.  Its properties are those of C33. -/
abbrev StillReader := List Char → ℤ × ℤ × ℤ × ℤ → ℤ → Option (List (List ℝ))

/-- `get_frame` of `H5Reader` (tools/lib/h5_reader.py:108): it has no argument for the window, so that a call with the arguments of the notebooks raises -/
def h5Still : StillReader := fun _ _ _ => none

/-- A data set of a notebook: component, species if it is compared with that of the probe, whether the second loop reads the asked window again instead of the
window of the probe (tools/view_4_E_T_rho_map.ipynb:162-163), and from which simulation (the second one is in tools/view_1_temperature_profile.ipynb only) -/
structure StillItem where
  component : List Char
  specie : Option (List Char)
  again : Bool
  run : ℕ

/-- The conditions on component and species, tools/view_1_density_map.ipynb:157-158, 165-166 and the same in the others -/
def StillItem.Wants (it : StillItem) (p : PyProbe) : Prop := p.component = it.component ∧ (it.specie = none ∨ it.specie = some p.specie)

instance (it : StillItem) (p : PyProbe) : Decidable (it.Wants p) := by
  unfold StillItem.Wants
  infer_instance

/-- The name for the reader: `'E_r'` or `'density/{}'.format(probe.specie)`, tools/view_1_density_map.ipynb:158 -/
def StillItem.name (it : StillItem) : List Char :=
  match it.specie with
  | none => it.component
  | some s => it.component ++ ['/'] ++ s

/-- tools/view_1_density_map.ipynb:152-166, tools/view_1_density_profile.ipynb:126-140, tools/view_1_density_longitudial_profile.ipynb:121-135 -/
def densityItems (specie : List Char) : List StillItem := [⟨"density".toList, some specie, false, 0⟩]

/-- tools/view_1_temperature_map.ipynb:135-150 -/
def temperatureItems (specie : List Char) : List StillItem := [⟨"T".toList, some specie, false, 0⟩]

/-- tools/view_1_temperature_profile.ipynb:130-148: the same data set of two simulations -/
def twoTemperatures (specie : List Char) : List StillItem := [⟨"T".toList, some specie, false, 0⟩, ⟨"T".toList, some specie, false, 1⟩]

/-- tools/view_3_E_RHObeam_r_z_map.ipynb:129-147 -/
def fieldItems : List StillItem := [⟨"E_r".toList, none, false, 0⟩, ⟨"E_z".toList, none, false, 0⟩, ⟨"rho_beam".toList, none, false, 0⟩]

/-- tools/view_4_E_T_rho_map.ipynb:143-163.  `data_t` and `data_rho` are unset at first, not empty: both raise when drawn. -/
def fourItems (specie : List Char) : List StillItem :=
  [⟨"E_r".toList, none, false, 0⟩, ⟨"E_z".toList, none, false, 0⟩, ⟨"T".toList, some specie, true, 0⟩, ⟨"density".toList, some specie, true, 0⟩]

/-- `[probe.r_start, probe.z_start, probe.r_end, probe.z_end]`, tools/view_1_density_map.ipynb:163 -/
def PyProbe.window (p : PyProbe) : ℤ × ℤ × ℤ × ℤ := (p.r_start, p.z_start, p.r_end, p.z_end)

/-- The comparison of the windows in the second loop, tools/view_1_density_map.ipynb:165 -/
def PyProbe.Contains (p : PyProbe) (w : ℤ × ℤ × ℤ × ℤ) : Prop := p.r_start ≤ w.1 ∧ p.z_start ≤ w.2.1 ∧ w.2.2.1 ≤ p.r_end ∧ w.2.2.2 ≤ p.z_end

instance (p : PyProbe) (w : ℤ × ℤ × ℤ × ℤ) : Decidable (p.Contains w) := by
  unfold PyProbe.Contains
  infer_instance

/-- `frame`, for every probe of whatever type, tools/view_1_density_map.ipynb:156, 164; division by zero raises -/
noncomputable def stillFrame (cfg : PyParams) (t : ℝ) (p : PyProbe) : Option ℤ :=
  open Classical in
  if cfg.step_interval = 0 ∨ p.schedule = 0 then none else some (frameByTime cfg t p.schedule)

/-- `frame[shape[0]:shape[2], shape[1]:shape[3]]`, tools/view_1_density_map.ipynb:166 -/
def npCrop (w : ℤ × ℤ × ℤ × ℤ) (f : List (List ℝ)) : List (List ℝ) := (pySlice f w.1 w.2.2.1).map fun r => pySlice r w.2.1 w.2.2.2

/-- The first loop, over probes of exactly the asked window, tools/view_1_density_map.ipynb:155-158.  Every match replaces the data of the one before.  `pick` is what is
taken from a frame: all of it, or `[:, col_number]` (tools/view_1_density_profile.ipynb:132), or `[row_number]`
(tools/view_1_density_longitudial_profile.ipynb:127). -/
noncomputable def stillExact {α : Type} (rd : ℕ → StillReader) (cfg : PyParams) (t : ℝ) (w : ℤ × ℤ × ℤ × ℤ) (pick : List (List ℝ) → Option (List α)) (it : StillItem) :
    List PyProbe → List α → Option (List α)
  | [], d => some d
  | p :: ps, d =>
    (stillFrame cfg t p).bind fun n =>
    if p.type = "frame".toList ∧ p.window = w ∧ it.Wants p then
      ((rd it.run it.name w n).bind pick).bind fun d => stillExact rd cfg t w pick it ps d
    else stillExact rd cfg t w pick it ps d

/-- The second loop, over probes of bigger windows, tools/view_1_density_map.ipynb:162-166 -/
noncomputable def stillBigger {α : Type} (rd : ℕ → StillReader) (cfg : PyParams) (t : ℝ) (w : ℤ × ℤ × ℤ × ℤ) (pick : List (List ℝ) → Option (List α)) (it : StillItem) :
    List PyProbe → List α → Option (List α)
  | [], d => some d
  | p :: ps, d =>
    (stillFrame cfg t p).bind fun n =>
    if p.type = "frame".toList ∧ p.Contains w ∧ it.Wants p then
      if it.again = true then
        ((rd it.run it.name w n).bind fun f => pick (npCrop w f)).bind fun d => stillBigger rd cfg t w pick it ps d
      else if d.length = 0 then
        ((rd it.run it.name p.window n).bind fun f => pick (npCrop w f)).bind fun d => stillBigger rd cfg t w pick it ps d
      else stillBigger rd cfg t w pick it ps d
    else stillBigger rd cfg t w pick it ps d

/-- The data sets.  Whether the second loop is run depends on the first data set only: tools/view_1_density_map.ipynb:161, tools/view_3_E_RHObeam_r_z_map.ipynb:140,
tools/view_4_E_T_rho_map.ipynb:155, tools/view_1_temperature_profile.ipynb:140.  `np.nan_to_num` of the temperature notebooks does nothing to numbers. -/
noncomputable def stillData {α : Type} (rd : ℕ → StillReader) (cfg : PyParams) (t : ℝ) (w : ℤ × ℤ × ℤ × ℤ) (pick : List (List ℝ) → Option (List α)) (autoselect : Bool)
    (items : List StillItem) : Option (List (List α)) :=
  (items.mapM fun it => stillExact rd cfg t w pick it cfg.probes []).bind fun ds =>
    if (ds.headD []).length = 0 ∧ autoselect = true then
      (items.zip ds).mapM fun x => stillBigger rd cfg t w pick x.1 cfg.probes x.2
    else some ds

/-- The images, tools/view_1_density_map.ipynb:180 and the same in the others; those of the fields in tools/view_4_E_T_rho_map.ipynb:182-183 without the absolute value.
Without data `imshow` raises. -/
noncomputable def stillMaps (rd : ℕ → StillReader) (cfg : PyParams) (t : ℝ) (w : ℤ × ℤ × ℤ × ℤ) (autoselect : Bool) (items : List StillItem) :
    Option (List (List (List ℝ))) :=
  (stillData rd cfg t w some autoselect items).bind fun ds => ds.mapM fun d => if d.length = 0 then none else some d

/-- `np.linspace(a, b, len(data))` and `plot(data_len, data)`; different lengths raise -/
noncomputable def stillCurve (a b : ℝ) (n : ℕ) (d : List ℝ) : Option (List (ℝ × ℝ)) :=
  (linspace a b n).bind fun xs => if xs.length = d.length then some (xs.zip d) else none

/-- The radial profile of the density, tools/view_1_density_profile.ipynb:123-152, 187 -/
noncomputable def densityProfile (rd : ℕ → StillReader) (cfg : PyParams) (t longitude : ℝ) (w : ℤ × ℤ × ℤ × ℤ) (autoselect : Bool) (specie : List Char) :
    Option (List (ℝ × ℝ)) :=
  (stillData rd cfg t w (fun f => npColumn f (colByLongitude cfg longitude)) autoselect (densityItems specie)).bind fun ds =>
    stillCurve w.1 w.2.2.1 (ds.headD []).length (ds.headD [])

/-- The radial profiles of the temperature of two simulations, tools/view_1_temperature_profile.ipynb:127-162, 195-196.  Rows, columns, probes and frames are those of the
first. -/
noncomputable def temperatureProfiles (rd : ℕ → StillReader) (cfg : PyParams) (t longitude : ℝ) (w : ℤ × ℤ × ℤ × ℤ) (autoselect : Bool) (specie : List Char) :
    Option (List (List (ℝ × ℝ))) :=
  (stillData rd cfg t w (fun f => npColumn f (colByLongitude cfg longitude)) autoselect (twoTemperatures specie)).bind fun ds =>
    ds.mapM fun d => stillCurve (radiusByRow cfg w.1) (radiusByRow cfg w.2.2.1) (ds.headD []).length d

/-- The profile of the density along the axis, tools/view_1_density_longitudial_profile.ipynb:118-151, 189-191.  With limits (`use_approx`) values outside of them are
deleted before; deleting from an empty list raises.  The fitted polynomial is not modelled, only the points. -/
noncomputable def longitudinalProfile (rd : ℕ → StillReader) (cfg : PyParams) (t radius : ℝ) (w : ℤ × ℤ × ℤ × ℤ) (autoselect : Bool) (specie : List Char)
    (limits : Option (ℝ × ℝ)) : Option (List (ℝ × ℝ)) :=
  open Classical in
  (stillData rd cfg t w (fun f => pyGet f (rowByRadius cfg radius)) autoselect (densityItems specie)).bind fun ds =>
    match limits with
    | none => stillCurve w.1 w.2.2.1 (ds.headD []).length (ds.headD [])
    | some l =>
      if (ds.headD []).length = 0 then none
      else
        let d := (ds.headD []).filter fun x => l.1 ≤ x ∧ x ≤ l.2
        stillCurve w.1 w.2.2.1 d.length d

end Verif
