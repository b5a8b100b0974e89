import Mathlib.Data.List.Basic

/-!
# Notebooks from the command line

tools/nbrun.sh runs a notebook with other values of its variables: `nbrun.sh some.ipynb radius=0.01`.  It edits the text of a copy of the notebook (JSON) with sed.  A file is the list of its
lines.  Not modelled: the names of the files, `-batch`, the conversion to Python and its execution (lines 1-24, 33-45), patterns for file names in arguments (`echo $i` would replace them by
the names of matching files).
-/

namespace Verif

/-- `[[:blank:]]`, also the characters at which the shell splits words (new lines are not part of arguments here) -/
def nbBlank (c : Char) : Bool := c = ' ' || c = '\t'

/-- `echo $i` without quotes, tools/nbrun.sh:29-30: words separated by one space each.  `started`: a word has been printed; `pending`: blanks were read since. -/
def shellEcho (started pending : Bool) : List Char → List Char
  | [] => []
  | c :: l => if nbBlank c then shellEcho started true l else (if started && pending then [' ', c] else [c]) ++ shellEcho true false l

/-- `cut -d'=' -f1`, tools/nbrun.sh:29 -/
def cutFirst (a : List Char) : List Char := a.takeWhile (· ≠ '=')

/-- `cut -d'=' -f2`, tools/nbrun.sh:30.  A line without `=` is given as a whole. -/
def cutSecond (a : List Char) : List Char := if '=' ∈ a then ((a.dropWhile (· ≠ '=')).drop 1).takeWhile (· ≠ '=') else a

/-- The match of `.*\\n"` that sed takes, the longest: what is behind the last `\n"` of the text -/
def afterLast : List Char → Option (List Char)
  | [] => none
  | c :: l => match afterLast l with
    | some r => some r
    | none => if ['\\', 'n', '"'] <+: c :: l then some (l.drop 2) else none

/-- The pattern `"VAR[[:blank:]]*=.*\\n"` at the beginning of a text, tools/nbrun.sh:32: what is behind the match -/
def nbMatch (var text : List Char) : Option (List Char) :=
  if '"' :: var <+: text then
    match (text.drop (var.length + 1)).dropWhile nbBlank with
    | '=' :: x => afterLast x
    | _ => none
  else none

/-- `s|"VAR[[:blank:]]*=.*\\n"|"VAR=VAL\\n"|g` on a line, tools/nbrun.sh:32: the leftmost match is replaced.  What is behind it has no `\n"` any more (`NbRun.afterLast_none`), so that there is
no second one. -/
def nbSed (var val : List Char) : List Char → List Char
  | [] => []
  | c :: l => match nbMatch var (c :: l) with
    | some r => '"' :: var ++ '=' :: val ++ ['\\', 'n', '"'] ++ r
    | none => c :: nbSed var val l

/-- letters, digits and `_`: characters that mean themselves in a pattern -/
def nbWord (c : Char) : Bool := c.isAlphanum || c = '_'

/-- sed on the file, tools/nbrun.sh:32.  `none` is not an outcome of the script but the end of the model: names with other characters, and values with characters that mean something else to
sed. -/
def nbSet (var val : List Char) (file : List (List Char)) : Option (List (List Char)) :=
  if var ≠ [] ∧ (∀ c ∈ var, nbWord c = true) ∧ '|' ∉ val ∧ '&' ∉ val ∧ '\\' ∉ val ∧ '\n' ∉ val then some (file.map (nbSed var val)) else none

/-- One argument, tools/nbrun.sh:29-32 -/
def nbArg (file : List (List Char)) (arg : List Char) : Option (List (List Char)) :=
  nbSet (cutFirst (shellEcho false false arg)) (cutSecond (shellEcho false false arg)) file

/-- All arguments after the name of the notebook, tools/nbrun.sh:28-33: the text that is converted and run -/
def nbRun (args : List (List Char)) (file : List (List Char)) : Option (List (List Char)) := args.foldlM nbArg file

end Verif
