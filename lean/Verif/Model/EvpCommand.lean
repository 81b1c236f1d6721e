import Verif.Model.MeshRead

/-!
# Command line of the crystal plasticity codes

`apps/micromechanics/{EVPFFT,LS-EVPFFT,LS-EVPFFT-J2,LSNP-EVPFFT}/src/command_line_args.{h,cpp}` (four identical copies)
and the choice of the reader in `data_grain.cpp`.  The words are those `MPI_Init` and `Kokkos::initialize` leave
(main.cpp:64-75), without the name of the program.  `getopt_long` is the C library's: words that are no options are
skipped, `--` ends the options, a long option may be shortened as long as it fits one option only.
-/

namespace Fierro

/-- The options, command_line_args.cpp:11-19. -/
inductive CmdOpt where
  | infile
  | micro
  | euler
  | feature
  | phase
  | unit
  | help
  deriving DecidableEq

/-- command_line_args.cpp:11, `short_opts`. -/
def shortOpt (c : Char) : Option CmdOpt :=
  if c = 'f' then some .infile
  else if c = 'm' then some .micro
  else if c = 'e' then some .euler
  else if c = 'g' then some .feature
  else if c = 'p' then some .phase
  else if c = 'u' then some .unit
  else if c = 'h' then some .help
  else none

/-- command_line_args.cpp:12-19, `long_opts`. -/
def longOpts : List (List Char × CmdOpt) :=
  [("infile".toList, .infile), ("micro-filetype".toList, .micro), ("euler-angles".toList, .euler),
   ("feature-ids".toList, .feature), ("phase-ids".toList, .phase), ("euler-unit".toList, .unit),
   ("help".toList, .help)]

/-- `getopt_long`'s search for a long option: an option of that name, or the only one that begins with it. -/
def longOpt (name : List Char) : Option CmdOpt :=
  match longOpts.find? fun p => p.1 = name with
  | some p => some p.2
  | none =>
    match longOpts.filter fun p => name.isPrefixOf p.1 with
    | [p] => some p.2
    | _ => none

/-- `CommandLineArgs`, command_line_args.h:6-21. -/
structure CmdArgs where
  infile : List Char := []
  micro : ℤ := 0
  euler : List Char := []
  feature : List Char := []
  phase : List Char := []
  unit : ℤ := -1
  deriving DecidableEq

/-- How the command line is left: the help text and `exit(1)`, a number `atoi` cannot convert (undefined), or the
arguments. -/
inductive CmdResult where
  | help
  | undef
  | ok (c : CmdArgs)
  deriving DecidableEq

/-- `atoi`: the leading integer, 0 if there is none, undefined outside the range of `int`. -/
def atoiC (v : List Char) : Option ℤ :=
  match readInt v with
  | none => some 0
  | some (n, _) => if -2147483648 ≤ n ∧ n ≤ 2147483647 then some n else none

/-- command_line_args.cpp:28-66, the cases of an option with its argument; `help` prints the help text and leaves. -/
def setOpt (c : CmdArgs) : CmdOpt → List Char → CmdResult
  | .infile, v => .ok { c with infile := v }
  | .micro, v => match atoiC v with
    | some n => .ok { c with micro := n }
    | none => .undef
  | .euler, v => .ok { c with euler := v }
  | .feature, v => .ok { c with feature := v }
  | .phase, v => .ok { c with phase := v }
  | .unit, v => match atoiC v with
    | some n => .ok { c with unit := n }
    | none => .undef
  | .help, _ => .help

/-- command_line_args.cpp:72-86, `check_cmd_args`. -/
def checkCmd (c : CmdArgs) : CmdResult :=
  if c.infile.length = 0 then .help
  else if c.micro = 1 then
    if c.euler.length = 0 ∨ c.feature.length = 0 ∨ c.phase.length = 0 ∨ c.unit = -1 then .help else .ok c
  else .ok c

/-- The name of a long option and the text behind the first `=`, if there is one. -/
def splitEq (b : List Char) : List Char × Option (List Char) :=
  match b.dropWhile (· ≠ '=') with
  | [] => (b, none)
  | _ :: v => (b.takeWhile (· ≠ '='), some v)

/-- What one word of the command line is to `getopt_long`: the end of the options, no option, an option with its
argument in the word, an option whose argument is the next word, or a fault (`?`).  `--help=x` is a fault, which
prints the help text like `--help`. -/
inductive CmdWord where
  | stop
  | other
  | full (o : CmdOpt) (v : List Char)
  | open (o : CmdOpt)
  | fault

/-- `getopt_long` on one word. -/
def cmdWord : List Char → CmdWord
  | '-' :: '-' :: [] => .stop
  | '-' :: '-' :: b =>
    match longOpt (splitEq b).1, (splitEq b).2 with
    | none, _ => .fault
    | some .help, some _ => .fault
    | some .help, none => .full .help []
    | some o, some v => .full o v
    | some o, none => .open o
  | '-' :: c :: t =>
    match shortOpt c with
    | none => .fault
    | some .help => .full .help []
    | some o => if t = [] then .open o else .full o t
  | _ => .other

/-- command_line_args.cpp:21-69, `parse_command_line`: the loop over the options and the check.  An option without
its argument is a fault, and every fault prints the help text. -/
def parseCmd (c : CmdArgs) : List (List Char) → CmdResult
  | [] => checkCmd c
  | w :: ws =>
    match cmdWord w with
    | .stop => checkCmd c
    | .other => parseCmd c ws
    | .fault => .help
    | .full o v =>
      match setOpt c o v with
      | .ok c' => parseCmd c' ws
      | r => r
    | .open o =>
      match ws with
      | [] => .help
      | v :: ws' =>
        match setOpt c o v with
        | .ok c' => parseCmd c' ws'
        | r => r

/-- The readers of the microstructure. -/
inductive MicroReader where
  | classic
  | hdf5
  | lattice
  deriving DecidableEq

/-- data_grain.cpp:17-33: the reader the file type asks for; `none`: `std::runtime_error`. -/
def microReader (t : ℤ) : Option MicroReader :=
  if t = 0 then some .classic
  else if t = 1 then some .hdf5
  else if t = 2 then some .lattice
  else none

end Fierro
