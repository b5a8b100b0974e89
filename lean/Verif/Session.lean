import Verif.ResultReader

/-!
# The life of a reader

Models `get_frame` of `PlainReader` (tools/lib/plain_reader.py) with its memory of file counts and with `TinyCache`
(tools/lib/tinycache.py), where arrays are objects that the caller may change.  What happens is a list of events: reads,
changes of a returned array by the caller, the end of the process and the start of a new one, and writing to the result
files by a simulator.  The directory of the component exists from the start (the simulator makes it before its first
iteration); the directory of the cache is not one of the result files.  Sizes and numbers are not negative.
-/

namespace Verif

/-- The arguments of `get_frame`, tools/lib/plain_reader.py:342 -/
structure FrameReq where
  component : List Char
  s0 : ℕ
  s1 : ℕ
  s2 : ℕ
  s3 : ℕ
  number : ℕ

/-- `cache_file_name`, tools/lib/plain_reader.py:348-349 -/
def FrameReq.key (q : FrameReq) : List Char := (Req.frame q.component q.s0 q.s1 q.s2 q.s3 q.number).key

/-- How the reader was made, tools/lib/plain_reader.py:20-32 -/
structure ReaderCfg where
  root : List Char
  fpds : ℕ
  use_cache : Bool

/-- A reader and what it shares with others: the arrays by address (an address is its place in `heap`), `__cache__`
of tools/lib/tinycache.py:14 (which holds references), the files of the cache directory, and `__data_set_ranges__`
of tools/lib/plain_reader.py:26 -/
structure ReaderState where
  heap : List (List ℝ)
  memory : List Char → Option ℕ
  disk : List Char → Option (List ℝ)
  ranges : List Char → Option ℕ

/-- Nothing read yet and no cache directory -/
def ReaderState.fresh : ReaderState := ⟨[], fun _ => none, fun _ => none, fun _ => none⟩

/-- `__get_ds_range__`, tools/lib/plain_reader.py:111-119 -/
noncomputable def dsRange (fs : OutFS) (dir : List Char) (s : ReaderState) : ℕ × ReaderState :=
  match s.ranges dir with
  | some n => (n, s)
  | none => (fileRange fs dir, { s with ranges := Function.update s.ranges dir (some (fileRange fs dir)) })

/-- A new array -/
def ReaderState.alloc (s : ReaderState) (v : List ℝ) : ℕ × ReaderState := (s.heap.length, { s with heap := s.heap ++ [v] })

/-- `get_cache`, tools/lib/tinycache.py:32-40, without a bound to a file; `none` is the empty array -/
def getCache (key : List Char) (s : ReaderState) : Option ℕ × ReaderState :=
  match s.memory key with
  | some a => (some a, s)
  | none =>
    match s.disk key with
    | some v => (some (s.alloc v).1, { (s.alloc v).2 with memory := Function.update s.memory key (some (s.alloc v).1) })
    | none => (none, s)

/-- `update_cache`, tools/lib/tinycache.py:42-46: `asarray` of an array of floats is the array itself. -/
def updateCache (key : List Char) (a : ℕ) (s : ReaderState) : ReaderState :=
  { s with memory := Function.update s.memory key (some a)
           disk := Function.update s.disk key (some (s.heap[a]?.getD [])) }

/-- The part of `get_frame` that reads the files, tools/lib/plain_reader.py:357-359 with 231-257, for the number of
files that the reader remembers -/
noncomputable def readFrame (fs : OutFS) (dir : List Char) (range fpds h w number : ℕ) : Option (List ℝ) :=
  if range < number / fpds then none
  else (fs (dir ++ '/' :: (dec (number / fpds) ++ ['.', 'd', 'a', 't']))).bind fun data =>
    (reshape fpds (h * w) (data.take (h * w * fpds))).bind fun l => l[number % fpds]?

/-- `get_frame`, tools/lib/plain_reader.py:342-364: the address of the array, `none` if an exception is raised, and
the state.  Reshaping and indexing give views of the same memory, so shapes are left out here; a cached array counts as
missing if it is empty. -/
noncomputable def sessionFrame (c : ReaderCfg) (fs : OutFS) (q : FrameReq) (s : ReaderState) : Option ℕ × ReaderState :=
  match readerPath c.root q.component .frame [q.s0, q.s1, q.s2, q.s3] with
  | none => (none, s)
  | some dir =>
    let r := dsRange fs dir s
    if r.1 * c.fpds ≤ q.number then (none, r.2)
    else
      let g := if c.use_cache then getCache q.key r.2 else (none, r.2)
      match g.1.filter fun a => g.2.heap[a]?.getD [] ≠ [] with
      | some a =>
        if (g.2.heap[a]?.getD []).length = (q.s2 - q.s0) * (q.s3 - q.s1) then (some a, updateCache q.key a g.2)
        else (none, g.2)
      | none =>
        match readFrame fs dir r.1 c.fpds (q.s2 - q.s0) (q.s3 - q.s1) q.number with
        | none => (none, g.2)
        | some v =>
          let n := g.2.alloc v
          (some n.1, if c.use_cache then updateCache q.key n.1 n.2 else n.2)

/-- What may happen -/
inductive SessionEvent
  /-- somebody asks for a frame -/
  | get (q : FrameReq)
  /-- the caller writes to an array -/
  | change (address : ℕ) (v : List ℝ)
  /-- the process ends, and a new reader is made -/
  | restart
  /-- a simulator writes result files -/
  | files (fs : OutFS)

/-- The result files and the reader after an event -/
noncomputable def sessionStep (c : ReaderCfg) : SessionEvent → OutFS × ReaderState → OutFS × ReaderState
  | .get q, (fs, s) => (fs, (sessionFrame c fs q s).2)
  | .change a v, (fs, s) => (fs, { s with heap := s.heap.set a v })
  | .restart, (fs, s) => (fs, { s with memory := fun _ => none, ranges := fun _ => none })
  | .files fs', (_, s) => (fs', s)

/-- The result files and the reader after a history -/
noncomputable def sessionAfter (c : ReaderCfg) : List SessionEvent → OutFS × ReaderState → OutFS × ReaderState
  | [], x => x
  | e :: es, x => sessionAfter c es (sessionStep c e x)

/-- The numbers that the caller gets -/
noncomputable def sessionValue (c : ReaderCfg) (q : FrameReq) (x : OutFS × ReaderState) : Option (List ℝ) :=
  (sessionFrame c x.1 q x.2).1.bind fun a => (sessionFrame c x.1 q x.2).2.heap[a]?

end Verif
