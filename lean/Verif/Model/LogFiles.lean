import Verif.Model.Estimator

/-!
# Model of the three log files of a session on the disk

inekf_estimator.cpp:60-69 opens three `std::ofstream`s (the file is created, or emptied), 149-172 writes a row of text to each and flushes.  A stream
writes at its own position in the file; two streams on one file have each its own position.  The text of a row is given, not computed from the state.
-/
namespace Drift.LogFiles

/-- the file system: the content of each file -/
abbrev Disk := List Char → List Char

/-- the three streams: the name of the file and the position of the next write -/
structure Streams where
  pose : List Char × ℕ
  vel : List Char × ℕ
  body : List Char × ℕ

/-- writing the text `s` at position `k` of a file with content `f` -/
def splice (f : List Char) (k : ℕ) (s : List Char) : List Char := f.take k ++ s ++ f.drop (k + s.length)

/-- one flushed output to a stream -/
def put (d : Disk) (st : List Char × ℕ) (s : List Char) : Disk × (List Char × ℕ) :=
  (fun n => if n = st.1 then splice (d n) st.2 s else d n, (st.1, st.2 + s.length))

/-- inekf_estimator.cpp:60-69: the files are opened -/
def opened (d : Disk) (names : List Char × List Char × List Char) : Disk × Streams :=
  (fun n => if n = names.1 ∨ n = names.2.1 ∨ n = names.2.2 then [] else d n, ⟨(names.1, 0), (names.2.1, 0), (names.2.2, 0)⟩)

/-- the texts of one row: pose, velocity, velocity in the body frame -/
structure Texts where
  pose : List Char
  vel : List Char
  body : List Char

/-- inekf_estimator.cpp:151-172: one row -/
def row (x : Disk × Streams) (r : Texts) : Disk × Streams :=
  let (d, a) := put x.1 x.2.pose r.pose
  let (d, b) := put d x.2.vel r.vel
  let (d, c) := put d x.2.body r.body
  (d, ⟨a, b, c⟩)

/-- the disk after the rows of a session -/
def session (d : Disk) (names : List Char × List Char × List Char) (rows : List Texts) : Disk := (rows.foldl row (opened d names)).1

end Drift.LogFiles
