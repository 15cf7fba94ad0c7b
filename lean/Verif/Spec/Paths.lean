import Verif.Go.Str

/-!
# Places in the file tree (C59, C60)

A place is the list of the names that lead to it from the root. Following a path from a place is defined name by name; no
function that cleans, joins or splits file names is used.
-/

namespace Baron.Cli

abbrev Place := List Str

/-- Names of files and directories. -/
def IsName (n : Str) : Prop := n ≠ [] ∧ n ≠ ".".toList ∧ n ≠ "..".toList ∧ '/' ∉ n

def Place.WF (p : Place) : Prop := ∀ n ∈ p, IsName n

/-- The absolute path written without detours. -/
def Place.text (p : Place) : Str := '/' :: join '/' p

/-- One element of a path: nothing and `.` stay, `..` goes to the parent (the root is its own parent), a name goes there. -/
def go (p : Place) (seg : Str) : Place :=
  if seg = [] ∨ seg = ".".toList then p else if seg = "..".toList then p.dropLast else p ++ [seg]

/-- Following a path from a place. -/
def walk (p : Place) (path : Str) : Place := (split '/' path).foldl go p

/-- What a path means in the working directory `cwd`. -/
def resolve (cwd : Place) (path : Str) : Place := if path.head? = some '/' then walk [] path else walk cwd path

end Baron.Cli
