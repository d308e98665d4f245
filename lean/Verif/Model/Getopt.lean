import Verif.Model.Options

/-!
# From the arguments to the options (service.py:87-105)

Python's `getopt.getopt`, which service.py:93-94 calls (and `usage.Options.parseOptions`, service.py:105, calls again), and the lists of
options that `usage.Options` gathers from `optParameters` and from the methods `opt_…`.
-/

namespace Txstatsd

/-- The part of a long argument before the first `=` (`getopt.do_longs`, called from service.py:93-94). -/
def longName (opt : Str) : Str := opt.takeWhile fun c => decide (c ≠ '=')

/-- The part after it, if there is one (`getopt.do_longs`, called from service.py:93-94). -/
def longValue (opt : Str) : Option Str :=
  match opt.dropWhile fun c => decide (c ≠ '=') with
  | [] => none
  | _ :: v => some v

/-- `getopt.long_has_args` (called from service.py:93-94): whether the option takes an argument, and its full name. -/
def longHasArgs (opt : Str) (longopts : List Str) : Except PyErr (Bool × Str) :=
  let possibilities := longopts.filter fun o => opt.isPrefixOf o
  if opt ∈ possibilities then .ok (false, opt)
  else if opt ++ c!"=" ∈ possibilities then .ok (true, opt)
  else match possibilities with
    | [u] => if u.getLast? = some '=' then .ok (true, u.dropLast) else .ok (false, u)
    | _ => .error .otherError   -- not recognized, or not a unique prefix

/-- `getopt.short_has_arg` (called from service.py:93-94). -/
def shortHasArg (c : Char) : Str → Except PyErr Bool
  | [] => .error .otherError
  | x :: rest => if c = x ∧ x ≠ ':' then .ok (decide (rest.head? = some ':')) else shortHasArg c rest

/-- `getopt.do_shorts` (called from service.py:93-94): the options of one argument, and the one whose argument is the next. -/
def doShorts (shortopts : Str) : Str → Except PyErr (List CmdOpt × Option Char)
  | [] => .ok ([], none)
  | c :: rest =>
    match shortHasArg c shortopts with
    | .error e => .error e
    | .ok true => if rest = [] then .ok ([], some c) else .ok ([⟨false, [c], rest⟩], none)
    | .ok false =>
      match doShorts shortopts rest with
      | .error e => .error e
      | .ok (os, next) => .ok (⟨false, [c], []⟩ :: os, next)

/-- Options in front of others (`getopt.getopt`, called from service.py:93-94). -/
def addOpts (os : List CmdOpt) : Except PyErr (List CmdOpt × List Str) → Except PyErr (List CmdOpt × List Str)
  | .error e => .error e
  | .ok (os', operands) => .ok (os ++ os', operands)

/-- `getopt.getopt` (called from service.py:93-94): the options and the other arguments. `GetoptError` becomes a `UsageError`
(service.py:95-96). -/
def getopt (longopts : List Str) (shortopts : Str) : List Str → Except PyErr (List CmdOpt × List Str)
  | [] => .ok ([], [])
  | a :: rest =>
    if a.head? ≠ some '-' ∨ a = c!"-" then .ok ([], a :: rest)
    else if a = c!"--" then .ok ([], rest)
    else if c!"--" <+: a then
      match longHasArgs (longName (a.drop 2)) longopts, longValue (a.drop 2) with
      | .error e, _ => .error e
      | .ok (true, name), some v => addOpts [⟨true, name, v⟩] (getopt longopts shortopts rest)
      | .ok (true, name), none =>
        match rest with
        | [] => .error .otherError
        | v :: rest => addOpts [⟨true, name, v⟩] (getopt longopts shortopts rest)
      | .ok (false, _), some _ => .error .otherError
      | .ok (false, name), none => addOpts [⟨true, name, []⟩] (getopt longopts shortopts rest)
    else
      match doShorts shortopts (a.drop 1) with
      | .error e => .error e
      | .ok (os, none) => addOpts os (getopt longopts shortopts rest)
      | .ok (os, some c) =>
        match rest with
        | [] => .error .otherError
        | v :: rest => addOpts (os ++ [⟨false, [c], v⟩]) (getopt longopts shortopts rest)

/-- `longOpt` of `StatsDOptions` (service.py:67-68, 82-85, 152-188, 197-204): the parameters, then the methods, of which `help` and
`version` are those of `usage.Options`. The options with a method are in it twice. -/
def statsdLongOpt : List Str :=
  (statsdDecls.map fun d => d.long ++ c!"=") ++
    [c!"carbon-cache-host=", c!"carbon-cache-port=", c!"carbon-cache-name=", c!"config=", c!"help", c!"version"]

/-- `shortOpt` of `StatsDOptions` (service.py:67-68, 85, 152-188): `opt_c` is a method. -/
def statsdShortOpt : Str := (statsdDecls.flatMap fun d => d.short ++ c!":") ++ c!"c:"

/-- `parseOptions` without the final `postOptions` (service.py:87-105). Operands are too many arguments for `parseArgs`; `--help` and
`--version` leave the program, which is an error here. -/
def parseArgv (st : Opts) (argv : List Str) : Except PyErr Opts :=
  match getopt statsdLongOpt statsdShortOpt argv with
  | .error e => .error e
  | .ok (os, operands) =>
    match parseCmd statsdDecls st os with
    | .error e => .error e
    | .ok st => if operands = [] then .ok st else .error .otherError

end Txstatsd
