import Verif.Model.Main

/-!
# Command lines (C78)

The grammar of baron's command line: which settings and which other arguments it consists of. `FlagName` and the record
`Flags` are shared with the model; how flags are spelled is said again here, from the flags to their texts.
-/

namespace Baron.Main

/-- How a flag is spelled after two dashes. -/
def FlagName.long : FlagName → Str
  | .svcout => "svcout".toList
  | .verbose => "verbose".toList
  | .help => "help".toList
  | .start => "start".toList
  | .version => "version".toList
  | .client => "client".toList
  | .transport => "transport".toList
  | .svcdef => "svcdef".toList
  | .debug => "debug".toList

/-- The letter of a flag (`--debug` has none). -/
def FlagName.Letter : FlagName → Char → Prop
  | .svcout, c => c = 'o'
  | .verbose, c => c = 'v'
  | .help, c => c = 'h'
  | .start, c => c = 's'
  | .version, c => c = 'V'
  | .client, c => c = 'c'
  | .transport, c => c = 't'
  | .svcdef, c => c = 'd'
  | .debug, _ => False

/-- The two flags that have a text as their value; the others are switched on or off. -/
def FlagName.Texts (n : FlagName) : Prop := n = .svcout ∨ n = .transport

/-- How a switch is said to be on or off. -/
def Says : Bool → Str → Prop
  | true, v => v ∈ ["1", "t", "T", "true", "TRUE", "True"].map String.toList
  | false, v => v ∈ ["0", "f", "F", "false", "FALSE", "False"].map String.toList

/-- What one flag on the command line says. -/
inductive Setting where
  | switch (n : FlagName) (on : Bool)
  | text (n : FlagName) (v : Str)

/-- A value given to a flag. -/
inductive Given : FlagName → Str → Setting → Prop
  | switch {n v b} : ¬ n.Texts → Says b v → Given n v (.switch n b)
  | text {n v} : n.Texts → Given n v (.text n v)

/-- What may follow one dash: letters of switches, the last one perhaps with a value, or a last letter with a text. The
fourth argument is the flag whose value is the next argument. What begins with `test.` is passed over. -/
inductive Letters : Str → List Setting → Option FlagName → Prop
  | last {n c} : ¬ n.Texts → n.Letter c → Letters [c] [.switch n true] none
  | more {n c cs ss o} : ¬ n.Texts → n.Letter c → Letters cs ss o → Letters (c :: cs) (.switch n true :: ss) o
  | value {n c v s} : n.Letter c → v ≠ [] → Given n v s → Letters (c :: '=' :: v) [s] none
  | attached {n c v} : n.Texts → n.Letter c → v ≠ [] → (v.head? = some '=' → v = ['=']) →
      ¬ "test.".toList <+: c :: v → Letters (c :: v) [.text n v] none
  | next {n c} : n.Texts → n.Letter c → Letters [c] [] (some n)
  | test {v} : Letters ("test.".toList ++ v) [] none

/-- Command lines: the arguments, the settings in their order, and the other arguments in their order. -/
inductive Line : List Str → List Setting → List Str → Prop
  | nil : Line [] [] []
  | dashes {r} : Line ("--".toList :: r) [] r
  | file {s r ss fs} : (s.head? = some '-' → s = "-".toList) → Line r ss fs → Line (s :: r) ss (s :: fs)
  | long {n r ss fs} : ¬ n.Texts → Line r ss fs → Line (("--".toList ++ n.long) :: r) (.switch n true :: ss) fs
  | longValue {n v s r ss fs} : Given n v s → Line r ss fs → Line (("--".toList ++ n.long ++ '=' :: v) :: r) (s :: ss) fs
  | longNext {n v r ss fs} : n.Texts → Line r ss fs → Line (("--".toList ++ n.long) :: v :: r) (.text n v :: ss) fs
  | letters {s l r ss fs} : Letters s l none → Line r ss fs → Line (('-' :: s) :: r) (l ++ ss) fs
  | lettersNext {s l n v r ss fs} : Letters s l (some n) → Line r ss fs →
      Line (('-' :: s) :: v :: r) (l ++ .text n v :: ss) fs

/-- A switch is as the last setting for it says, and off without any. -/
def isOn (ss : List Setting) (n : FlagName) : Bool :=
  ((ss.filterMap fun | .switch m b => if m = n then some b else none | .text _ _ => none).getLast?).getD false

/-- A text is as the last setting for it says. -/
def textOf (ss : List Setting) (n : FlagName) (dflt : Str) : Str :=
  ((ss.filterMap fun | .text m v => if m = n then some v else none | .switch _ _ => none).getLast?).getD dflt

/-- What the settings mean together. -/
def meaning (ss : List Setting) : Flags where
  svcOut := textOf ss .svcout "./".toList
  verbose := isOn ss .verbose
  help := isOn ss .help
  start := isOn ss .start
  version := isOn ss .version
  client := isOn ss .client
  transport := textOf ss .transport "all".toList
  svcdef := isOn ss .svcdef
  debug := isOn ss .debug

end Baron.Main
