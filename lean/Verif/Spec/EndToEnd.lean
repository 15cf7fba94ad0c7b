import Verif.Spec.New
import Verif.Spec.Transport

/-!
# Specification for C80: from the text of a .proto file to what the generated server does

Everything is said in terms of what is written: the annotations in the .proto files and the interface in the Go files.
-/

namespace Baron.EndToEnd

open Baron.Svcdef Baron.New Baron.Consolidate Baron.Parser.Grammar
open Baron.HTTP (Piece templateOf TemplateOK)
open Baron.Transport (Fits)

/-- Everything that is annotated, with the Go name of the method it is written for: method by method as in the interface `t`,
for each method the annotations in the order of `annotations`. -/
def written (t : GoTypeSpec) (docs : List (Option ASvc)) : List (Str × Parser.HTTPBinding) :=
  (exportedMembers t).flatMap fun m => match m.names.head? with
    | none => []
    | some n => (annotations docs n).map fun a => (n, a)

/-- An annotation asks for requests with this verb, in upper case, whose path has these segments. -/
def For (a : Parser.HTTPBinding) (verb : Str) (segs : List Str) : Prop :=
  ∃ v p ps, VerbPath a v p ∧ toUpper v = verb ∧ p = templateOf ps ∧ TemplateOK ps ∧ Fits ps segs

/-- The path of an annotation is written from literals and parameters. -/
def Plain (a : Parser.HTTPBinding) : Prop := ∃ v p ps, VerbPath a v p ∧ p = templateOf ps ∧ TemplateOK ps

/-- `n` is a method of the interface `t` and its request is a message with these fields. -/
def RequestFields (fs : List GoFile) (t : GoTypeSpec) (n : Str) (fields : List Str) : Prop :=
  ∃ m ∈ exportedMembers t, m.names.head? = some n ∧ ∃ ctx rq more res x, m.func = some (ctx :: rq :: more, res) ∧
    PointerTo rq x ∧ ∃ st ∈ fs.flatMap GoFile.types, IsExportedStruct st = true ∧ st.name = x ∧
      fields = (structFields st).map fun y => y.names.headD []

end Baron.EndToEnd
