import Verif.IO.Rea

/-!
# Line ends in text files

`/repo/src/pymech/neksuite/mesh.py`:21 opens a `.rea` file by `open(fname)`, in text mode with universal newlines: `\r\n` and
a lone `\r` are read as `\n`. Line 210 opens one for writing by `open(fname, "w")`: each `\n` is written as the line end of the
platform.
-/

set_option autoImplicit false

namespace Pymech

/-- What a text file opened by `open(fname)` yields for its characters, mesh.py:21. -/
def univ : Text → Text
  | [] => []
  | c :: s =>
    if c = '\r' then
      match s with
      | [] => ['\n']
      | d :: t => if d = '\n' then '\n' :: univ t else '\n' :: univ (d :: t)
    else c :: univ s

/-- `readrea` of a file with these characters, mesh.py:12–196. -/
def readreaFile (native : Endian) (s : Text) : Py (HexaData F64) := readrea native (univ s)

/-- What a text file opened by `open(fname, "w")` holds after `s` was written, where the platform ends lines by `e`, mesh.py:210. -/
def platform (e s : Text) : Text := s.flatMap fun c => if c = '\n' then e else [c]

end Pymech
