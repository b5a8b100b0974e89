import Verif.Output

/-!
# The table on the terminal (C106)

Models `LoadInitParam::print_data` (src/loadInitParam.cpp:261-317) and its calls from `dump_data`.
-/

namespace Verif

/-- `left << setw(w) << s`: never shortens -/
def padTo (w : ℕ) (s : List Char) : List Char := s ++ List.replicate (w - s.length) ' '

/-- The header, src/loadInitParam.cpp:267-274 -/
def tableHeader : List Char :=
  ['\n'] ++ padTo 8 ['S', 't', 'e', 'p']
    ++ padTo 13 ['S', 'a', 'v', 'e', 'd', ' ', 'F', 'r', 'a', 'm', 'e']
    ++ padTo 25 ['D', 'u', 'm', 'p', 'i', 'n', 'g', ' ', 'P', 'r', 'o', 'b', 'e', ' ', 'N', 'a', 'm', 'e']
    ++ padTo 21 ['S', 'h', 'a', 'p', 'e']
    ++ padTo 18 ['M', 'o', 'd', 'e', 'l', ' ', 'T', 'i', 'm', 'e', ' ', '(', 's', 'e', 'c', ')']
    ++ padTo 21 ['S', 'i', 'm', 'u', 'l', 'a', 't', 'i', 'o', 'n', ' ', 'D', 'u', 'r', 'a', 't', 'i', 'o', 'n']
    ++ ['\n']

/-- `type_comp`, src/loadInitParam.cpp:280-307 -/
def typeComp (p : ProbeDecl) : List Char :=
  match p.kind with
  | .frame => if p.specie ≠ noneText then ['f', 'r', 'a', 'm', 'e', '/'] ++ p.component ++ ['/'] ++ p.specie
      else ['f', 'r', 'a', 'm', 'e', '/'] ++ p.component
  | .col => if p.specie ≠ noneText then ['c', 'o', 'l', 'u', 'm', 'n', '/'] ++ p.component ++ ['/'] ++ p.specie
      else ['c', 'o', 'l', 'u', 'm', 'n', '/'] ++ p.component
  | .row => if p.specie ≠ noneText then ['r', 'o', 'w', '/'] ++ p.component ++ ['/'] ++ p.specie
      else ['r', 'o', 'w', '/'] ++ p.component
  | .dot => if p.specie ≠ noneText then ['d', 'o', 't', '/'] ++ p.component ++ ['/'] ++ p.specie
      else ['d', 'o', 't', '/'] ++ p.component
  | .mpframe => if p.specie ≠ noneText then ['m', 'p', 'f', 'r', 'a', 'm', 'e', '/'] ++ p.component ++ ['/'] ++ p.specie
      else ['m', 'p', 'f', 'r', 'a', 'm', 'e', '/'] ++ p.component

/-- `probe_shape`, src/loadInitParam.cpp:285, 290, 295, 300, 305, of the `shape` of line 336 -/
def probeShape (p : ProbeDecl) : List Char :=
  match p.kind with
  | .frame => ['['] ++ fmtInt p.start_r ++ [','] ++ fmtInt p.start_z ++ [','] ++ fmtInt p.end_r ++ [','] ++ fmtInt p.end_z ++ [']']
  | .col => ['['] ++ fmtInt p.start_z ++ [']']
  | .row => ['['] ++ fmtInt p.start_r ++ [']']
  | .dot => ['['] ++ fmtInt p.start_r ++ [','] ++ fmtInt p.start_z ++ [']']
  | .mpframe => ['['] ++ fmtInt p.start_r ++ [','] ++ fmtInt p.start_z ++ [','] ++ fmtInt p.end_r ++ [','] ++ fmtInt p.end_z ++ [']']

/-- What was printed so far: `printed_step` (include/loadInitParam.h:111) and the characters -/
structure Table where
  printed : ℕ
  text : List Char

/-- `print_data`, src/loadInitParam.cpp:261-317; `none` when a buffer of 100 characters or the product of lines 309 overflows.
`n` is `step_number`, `time` the text of the current time and `dur` that of `get_simulation_duration` (Lib.lean; the overflow of
its own buffer is C43_buffer_violated). -/
def printData (p : ProbeDecl) (n : ℕ) (time dur : List Char) (T : Table) : Option Table :=
  if Fits (typeComp p) 100 ∧ Fits (probeShape p) 100 ∧ |n * p.schedule| < 2 ^ 31 then
    some ⟨T.printed + 1, T.text ++ (if T.printed % 20 = 0 then tableHeader else []) ++ padTo 8 (fmtInt (n * p.schedule))
      ++ padTo 13 (fmtInt n) ++ padTo 25 (typeComp p) ++ padTo 21 (probeShape p) ++ padTo 18 time ++ padTo 18 dur ++ ['\n']⟩
  else none

/-- One probe of `dump_data`, what it prints: src/loadInitParam.cpp:328-338, 410.  `dur i` is the text of the duration in line `i`.
The write between is Output.lean. -/
noncomputable def reportOne (showTime : ℝ → List Char) (dur : ℕ → List Char) (t dt : ℝ) (p : ProbeDecl) (n : ℕ) (T : Table) :
    Option (ℕ × Table) :=
  if p.schedule = 0 then none
  else if (truncZ (t / dt)).tmod p.schedule = 0 then (printData p n (showTime t) (dur T.printed) T).map fun T => (n + 1, T)
  else some (n, T)

/-- All probes of `dump_data`, src/loadInitParam.cpp:324-412 -/
noncomputable def reportData (showTime : ℝ → List Char) (dur : ℕ → List Char) (t dt : ℝ) :
    List (ProbeDecl × ℕ) → Table → Option (List (ProbeDecl × ℕ) × Table)
  | [], T => some ([], T)
  | (p, n) :: ps, T => (reportOne showTime dur t dt p n T).bind fun x =>
      (reportData showTime dur t dt ps x.2).map fun y => ((p, x.1) :: y.1, y.2)

/-- What `N` iterations from time `t0` print, src/loadInitParam.cpp:584-586 -/
noncomputable def reportRun (showTime : ℝ → List Char) (dur : ℕ → List Char) (t0 dt : ℝ) (ps : List ProbeDecl) :
    ℕ → Option (List (ProbeDecl × ℕ) × Table)
  | 0 => some (ps.map fun p => (p, 0), ⟨0, []⟩)
  | N + 1 => (reportRun showTime dur t0 dt ps N).bind fun x => reportData showTime dur (t0 + N * dt) dt x.1 x.2

end Verif
