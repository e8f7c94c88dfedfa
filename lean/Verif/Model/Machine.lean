/-
What the program finds out about the machine it runs on (parallel/machine.cpp), and the words it passes to PETSc
(time_stepping/petsc_environment.cpp).
-/
import Verif.Model.Settings

namespace Madg

/-- `boost::split` on single blanks without merging them (parallel/machine.cpp:45); `cur` is the word being collected. -/
def splitBlanks (cur : Text) : Text → List Text
  | [] => [cur]
  | c :: t => if c = ' ' then cur :: splitBlanks [] t else splitBlanks (cur ++ [c]) t

/-- The words of a processor line from the third on, with blanks between them (parallel/machine.cpp:46-52). -/
def modelOf (line : Text) : Text :=
  match (splitBlanks [] line).drop 2 with
  | [] => "not found".toList
  | w :: ws => ws.foldl (fun s x => s ++ [' '] ++ x) w

/-- `Machine::getProcessorModel` (parallel/machine.cpp:34-57) for the contents of `/proc/cpuinfo`, `none` if it cannot be opened. -/
def processorModel : Option Text → Text
  | none => "not found".toList
  | some t =>
    match (linesGo [] t).find? fun l => l.take 10 = "model name".toList with
    | none => "not found".toList
    | some l => modelOf l

/-- `gethostname` (parallel/machine.cpp:65) of the C library on a buffer with the given contents: as much of the name and its terminator
as fits. -/
def getHostName (name buf : Text) : Text := (name ++ ['\x00']).take buf.length ++ buf.drop (name.length + 1)

/-- `std::string(char*)` (parallel/machine.cpp:66): the characters up to the terminator; without terminator the buffer is read beyond its
end. -/
def cString (buf : Text) : Except Err Text :=
  if buf.contains '\x00' then .ok (buf.takeWhile (· != '\x00')) else .error .outOfBounds

/-- `Machine::getHostname` (parallel/machine.cpp:61-67); `buf` are the `HOST_NAME_MAX` (64 on Linux) characters of the uninitialised
array. -/
def hostName (name buf : Text) : Except Err Text := cString (getHostName name buf)

/-- `std::isspace` in the C locale (`operator>>(std::string&)`, time_stepping/petsc_environment.cpp:38). -/
def isCSpace (c : Char) : Bool := c == ' ' || c == '\t' || c == '\n' || c == '\x0b' || c == '\x0c' || c == '\r'

/-- The words read by `std::istream_iterator<std::string>` (time_stepping/petsc_environment.cpp:38); `cur` is the word being read. -/
def wordsGo (cur : Text) : Text → List Text
  | [] => if cur = [] then [] else [cur]
  | c :: t =>
    if isCSpace c then if cur = [] then wordsGo [] t else cur :: wordsGo [] t
    else wordsGo (cur ++ [c]) t

/-- The arguments passed to `PetscInitialize` (time_stepping/petsc_environment.cpp:36-46). -/
def petscArgs (opts : Text) : List Text := "maDG".toList :: wordsGo [] opts

/-- The command line in the log (time_stepping/petsc_environment.cpp:49-52). -/
def petscCommand (opts : Text) : Text := (petscArgs opts).foldl (fun s w => s ++ (w ++ [' '])) []

end Madg
