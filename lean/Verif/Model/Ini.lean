import Verif.Model.Getopt
import Verif.Model.Text

/-!
# From the text of the configuration file to its sections (service.py:107-113)

Python's `ConfigParser.RawConfigParser`, which service.py:110-111 uses: `read`, `sections` and `items`.
-/

namespace Txstatsd

/-- The section of which the items belong to all sections (`ConfigParser.DEFAULTSECT`, for service.py:111, 121). -/
def defaultSect : Str := c!"DEFAULT"

/-- A parser while it reads a file (`RawConfigParser._read`, called from service.py:111): the lines of the values by section and option,
the current section and option, and whether a line could not be read. Simplified: the defaults are kept with the sections, under
their name. -/
structure Ini where
  /-- The sections. -/
  tables : Dict (Dict (List Str))
  /-- The section the line is in. -/
  cur : Option Str
  /-- The option a continuation line belongs to. -/
  opt : Option Str
  /-- Whether a `ParsingError` will be raised at the end. -/
  bad : Bool
  deriving DecidableEq

/-- A comment in the manner of DOS: the first word is `rem` (`RawConfigParser._read`, called from service.py:111). -/
def isRem (line : Str) : Bool := ((line.takeWhile fun c => !isSpace c).map lowerChar) = c!"rem"

/-- The regular expression of section headers, `\[([^]]+)\]` (`RawConfigParser.SECTCRE`, for service.py:111). -/
def sectionHeader : Str → Option Str
  | '[' :: rest =>
    match split1 ']' rest with
    | some (name, _) => if name = [] then none else some name
    | none => none
  | _ => none

/-- The value after the separator and white space: up to a `;` that follows white space, stripped, and `""` is empty
(`RawConfigParser._read`, called from service.py:111). A `;` at the beginning looks at `optval[-1]`, the last character. -/
def iniValue (optval : Str) : Str :=
  let v := match split1 ';' optval with
    | none => optval
    | some (x, _) => if (x.getLast?.or optval.getLast?).any isSpace then x else optval
  if strip v = c!"\"\"" then [] else strip v

/-- The separators of names and values (`RawConfigParser.OPTCRE`, for service.py:111). -/
def isSep (c : Char) : Bool := c == ':' || c == '='

/-- The regular expression of options, `([^:=\s][^:=]*)\s*[:=]\s*(.*)$`, and what is made of its groups
(`RawConfigParser.OPTCRE` and `_read`, called from service.py:111). -/
def optionLine (line : Str) : Option (Str × Str) :=
  match line.head? with
  | none => none
  | some c =>
    if isSpace c || isSep c then none
    else match line.dropWhile (fun c => !isSep c) with
      | [] => none
      | _ :: r => some ((rstrip (line.takeWhile fun c => !isSep c)).map lowerChar, iniValue (lstrip r))

/-- The lines of an option of a section (`cursect[optname]`, `RawConfigParser._read`, called from service.py:111). -/
def Ini.get (st : Ini) (s n : Str) : List Str := (((st.tables.find s).getD []).find n).getD []

/-- `cursect[optname] = …` (`RawConfigParser._read`, called from service.py:111). -/
def Ini.set (st : Ini) (s n : Str) (v : List Str) : Ini :=
  { st with tables := st.tables.put s (((st.tables.find s).getD []).put n v) }

/-- Entering a section (`RawConfigParser._read`, called from service.py:111). -/
def Ini.enter (st : Ini) (s : Str) : Ini :=
  { st with tables := if st.tables.has s then st.tables else st.tables.put s [], cur := some s, opt := none }

/-- One line (`RawConfigParser._read`, called from service.py:111), without its newline. -/
def Ini.step (st : Ini) (line : Str) : Except PyErr Ini :=
  if strip line = [] ∨ line.head? = some '#' ∨ line.head? = some ';' then .ok st
  else if isRem line then .ok st
  else match line.head?.any isSpace, st.cur, st.opt with
    | true, some s, some n => .ok (st.set s n (st.get s n ++ [strip line]))
    | _, _, _ =>
      match sectionHeader line, st.cur with
      | some s, _ => .ok (st.enter s)
      | none, none => .error .otherError   -- MissingSectionHeaderError
      | none, some s =>
        match optionLine line with
        | some (n, v) => .ok { st.set s n [v] with opt := some n }
        | none => .ok { st with bad := true }

/-- The lines, in order (`RawConfigParser._read`, called from service.py:111). -/
def Ini.run (st : Ini) : List Str → Except PyErr Ini
  | [] => .ok st
  | l :: ls =>
    match st.step l with
    | .error e => .error e
    | .ok st => st.run ls

/-- `items(section)`: the defaults, updated by the section, without `__name__` (`RawConfigParser.items`, called from
service.py:121, 126, 128); the lines of each value are joined (`_read`, service.py:111). -/
def Ini.items (st : Ini) (s : Str) : List (Str × Str) :=
  (((((st.tables.find s).getD []).foldl (fun d p => d.put p.1 p.2) ((st.tables.find defaultSect).getD [])).filter
    fun p => p.1 ≠ c!"__name__")).map fun p => (p.1, joinWith c!"\n" p.2)

/-- `RawConfigParser()` and `read` of a file with this text (service.py:110-111), and what `sections()` and `items(…)` then return
(service.py:121, 124, 126, 128). -/
def readConfig (text : Str) : Except PyErr Config :=
  match Ini.run ⟨[], none, none, false⟩ (splitOn '\n' text) with
  | .error e => .error e
  | .ok st =>
    if st.bad then .error .otherError   -- ParsingError
    else .ok ((st.tables.keys.filter fun s => s ≠ defaultSect).map fun s => (s, st.items s))

/-- `postOptions` (service.py:107-113), when `files` are the files that can be opened; `read` ignores those that cannot. -/
def postOptions (files : Str → Option Str) (st : Opts) : Except PyErr Opts :=
  match st.values.find c!"config" with
  | some (.text path) =>
    match files path with
    | none => configureFile statsdDecls c!"statsd" st []
    | some text =>
      match readConfig text with
      | .error e => .error e
      | .ok cfg => configureFile statsdDecls c!"statsd" st cfg
  | _ => .ok st

/-- `StatsDOptions().parseOptions(argv)` (service.py:87-113). -/
def startOptions (files : Str → Option Str) (argv : List Str) : Except PyErr Opts :=
  match parseArgv statsdOpts argv with
  | .error e => .error e
  | .ok st => postOptions files st

end Txstatsd
