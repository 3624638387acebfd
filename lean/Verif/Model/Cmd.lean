import Verif.Model.Streams

/-!
# Command line options and lists

Model of `CmdOptions` (`include/diagnostic/vdtdiag_simpleCmd.h`) and of `list2vector`
(`progs/vdtArithmComparison.cpp`).  Strings are lists of characters; positions fit in `int`
(arguments shorter than `2^31` characters).  The messages printed are not modelled.
-/

namespace Vdt.Cmd
open Vdt.Txt (Text)

/-- `std::string::find` for a character: its first position. -/
def find (c : Char) : Text → Option Nat
  | [] => none
  | a :: t => if a = c then some 0 else (find c t).map (· + 1)

/-- An option: short and long flag (vdtdiag_simpleCmd.h:31; the help text plays no part). -/
structure Opt where
  short : Text
  long : Text
  deriving DecidableEq

/-- include/diagnostic/vdtdiag_simpleCmd.h:36-37.  The map is an association list. -/
structure CmdOptions where
  received : List (Text × Text)
  allowed : List Opt

/-- include/diagnostic/vdtdiag_simpleCmd.h:39-45 -/
def new : CmdOptions := ⟨[], [⟨"-h".toList, "--help".toList⟩]⟩

/-- include/diagnostic/vdtdiag_simpleCmd.h:49-53 -/
def CmdOptions.addOption (o : CmdOptions) (shrt lng : Text) : CmdOptions :=
  { o with allowed := o.allowed ++ [⟨shrt, lng⟩] }

/-- `receivedOpts.find(key)` -/
def lookup (key : Text) : List (Text × Text) → Option Text
  | [] => none
  | (k, v) :: r => if k = key then some v else lookup key r

/-- include/diagnostic/vdtdiag_simpleCmd.h:60-66 and 82: the flag and the argument of one word, cut at
the first `=` unless that is the first character. -/
def cutArg (raw : Text) : Text × Text :=
  match find '=' raw with
  | some (n + 1) => (raw.take (n + 1), raw.drop (n + 2))
  | _ => (raw, [])

/-- include/diagnostic/vdtdiag_simpleCmd.h:70-85: the loop over the allowed options.  `none`: not
found; `some false`: given before; `some true` with the new map: accepted. -/
def matchOpt (flag value : Text) (recv : List (Text × Text)) : List Opt → Option (Bool × List (Text × Text))
  | [] => none
  | o :: os =>
    if o.short = flag ∨ o.long = flag then
      if (lookup o.short recv).isSome then some (false, recv)
      else some (true, (o.short, value) :: recv)
    else matchOpt flag value recv os

/-- include/diagnostic/vdtdiag_simpleCmd.h:57-90: the loop over the words (without the program name). -/
def parseLoop (allowed : List Opt) : List Text → List (Text × Text) → Bool × List (Text × Text)
  | [], recv => (true, recv)
  | raw :: ws, recv =>
    match matchOpt (cutArg raw).1 (cutArg raw).2 recv allowed with
    | none => (false, recv)
    | some (false, recv') => (false, recv')
    | some (true, recv') => parseLoop allowed ws recv'

/-- include/diagnostic/vdtdiag_simpleCmd.h:55-100 (the help it may print is not modelled) -/
def CmdOptions.parseCmd (o : CmdOptions) (words : List Text) : Bool × CmdOptions :=
  let r := parseLoop o.allowed words o.received
  (r.1, { o with received := r.2 })

/-- include/diagnostic/vdtdiag_simpleCmd.h:102-107 -/
def CmdOptions.isSet (o : CmdOptions) (shortFlag : Text) : Bool := (lookup shortFlag o.received).isSome

/-- include/diagnostic/vdtdiag_simpleCmd.h:109-114 -/
def CmdOptions.getArgument (o : CmdOptions) (shortFlag : Text) : Text :=
  if !o.isSet shortFlag then [] else (lookup shortFlag o.received).getD []

/-- progs/vdtArithmComparison.cpp:21-37.  `rest` is the part of the string behind the last separator. -/
def list2vectorGo (sep : Char) : Nat → Text → List Text
  | 0, _ => []
  | fuel + 1, rest =>
    match find sep rest with
    | some n => rest.take n :: list2vectorGo sep fuel (rest.drop (n + 1))
    | none => if rest.length > 0 then [rest] else []

/-- progs/vdtArithmComparison.cpp:21-37; every round of the loop passes a separator, so the length of
the string bounds the number of rounds. -/
def list2vector (csList : Text) (sep : Char := ',') : List Text := list2vectorGo sep (csList.length + 1) csList

end Vdt.Cmd
