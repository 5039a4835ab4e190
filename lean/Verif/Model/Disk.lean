import Verif.Model.Benchmark
/-
Model of the files a benchmark writes (include/fast_methods/benchmark/benchmark.hpp:166-190): names and overwriting.

`boost::filesystem::path` is its text (POSIX).  Simplifications: `std::ofstream` always succeeds, directories exist; two different texts are two different files (no links,
no `.` or `..` in the middle of a path).
-/
namespace FMV.Disk
open Console
variable {F : Type} [Arith F]

/-- `a / b` for paths (boost/filesystem/path.hpp, used by benchmark.hpp:171,173): a separator is added if neither side has one. -/
def join (a b : Str) : Str :=
  match b with
  | [] => a
  | c :: _ => if c = '/' ∨ a = [] ∨ a.getLast? = some '/' then a ++ b else a ++ '/' :: b

/-- the part of a path after the last separator (`.` for nothing), `path::filename()` -/
def filename (p : Str) : Str :=
  let f := (p.reverse.takeWhile (· ≠ '/')).reverse
  if f = [] then ['.'] else f

/-- `path::extension()`: from the last dot of the file name on -/
def extension (p : Str) : Str :=
  let f := filename p
  if f = ['.'] ∨ f = ['.', '.'] then []
  else if '.' ∈ f then '.' :: (f.reverse.takeWhile (· ≠ '.')).reverse else []

/-- `path::replace_extension(ext)` (benchmark.hpp:175) -/
def replaceExtension (p ext : Str) : Str := p.take (p.length - (extension p).length) ++ ext

/-- the path of a saved grid (benchmark.hpp:168-176): `who` is the name of the solver or the number of the run -/
def gridPath (path name who : Str) : Str := replaceExtension (join (join path name) who) ".grid".toList

/-- the path of the log (benchmark.hpp:183) -/
def logPath (path name : Str) : Str := path ++ '/' :: name ++ ".log".toList

/-- The files, by path. -/
def Files (α : Type) := Str → Option α

/-- `std::ofstream` truncates an existing file -/
def Files.write {α : Type} (d : Files α) (p : Str) (x : α) : Files α := fun q => if q = p then some x else d q

/-- the files after the calls of `saveGrid` of a benchmark (benchmark.hpp:134,139), in the order in which they are made -/
def saveGrids {α : Type} (d : Files α) (path name : Str) (saved : List (Str × α)) : Files α :=
  saved.foldl (fun d f => d.write (gridPath path name f.1) f.2) d

/-- `log_` (benchmark.hpp:262): the text written to the stream so far and the number of characters read from it -/
structure Log where
  text : Str
  read : Nat

/-- `saveLog()` (benchmark.hpp:181-186): `ofs << log_.rdbuf()` writes what has not been read yet. -/
def saveLog (d : Files Str) (path name : Str) (l : Log) : Files Str × Log :=
  (d.write (logPath path name) (l.text.drop l.read), { l with read := l.text.length })

/-- `run()` called several times on one benchmark (benchmark.hpp:107-152) with `saveLog_` set, each time followed by nothing else: the text added by every
run, in order.  Gives the files and the stream. -/
def runsLogged (path name : Str) (texts : List Str) (st : Files Str × Log) : Files Str × Log :=
  texts.foldl (fun st t => saveLog st.1 path name { st.2 with text := st.2.text ++ t }) st

end FMV.Disk
