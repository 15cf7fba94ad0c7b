import Verif.Model.Consolidate

/-! # What HTTP annotations mean (C13-C17) -/

namespace Baron.Consolidate

open Baron.Strs Baron.Svcdef

/-- A path template: literal text and parameter name, repeated, then trailing literal text. -/
def templateText (pieces : List (Str × Str)) (last : Str) : Str :=
  pieces.flatMap (fun x => x.1 ++ ['{'] ++ x.2 ++ ['}']) ++ last

/-- Literals have no opening brace; parameter names have no braces and no newline. -/
def TemplateWF (pieces : List (Str × Str)) (last : Str) : Prop :=
  (∀ x ∈ pieces, '{' ∉ x.1 ∧ '{' ∉ x.2 ∧ '}' ∉ x.2 ∧ '\n' ∉ x.2) ∧ '{' ∉ last

/-- A parameter such as `a_b.c` names the field whose Go name is the camel-cased first segment. -/
def Names (param : Str) (f : Field) : Prop := ∃ rest, (param = rest ∧ '.' ∉ rest ∧ goCamelCase rest = f.name) ∨
  ∃ more, param = rest ++ '.' :: more ∧ '.' ∉ rest ∧ goCamelCase rest = f.name

/-- A body option selects a field: `*`, the field's Go name, or a name whose first segment camel-cases to it. -/
def InBody (b : Parser.HTTPBinding) (f : Field) : Prop :=
  ∃ o ∈ b.fields, o.kind = "body".toList ∧ (o.value = "*".toList ∨ o.value = f.name ∨ Names o.value f)

/-- The five standard verbs. -/
def StdVerb (k : Str) : Prop :=
  k = "get".toList ∨ k = "put".toList ∨ k = "post".toList ∨ k = "delete".toList ∨ k = "patch".toList

/-- The value of the last entry of the given kind, empty if there is none. -/
def lastOf (kind : String) (fs : List Parser.Field) : Str :=
  (((fs.filter fun f => f.kind = kind.toList).getLast?).map Parser.Field.value).getD []

/-- The verb and the path an annotation stands for. -/
inductive VerbPath (b : Parser.HTTPBinding) : Str → Str → Prop where
  /-- a custom pattern: its last `kind` and `path` -/
  | custom : b.custom ≠ [] → VerbPath b (lastOf "kind" b.custom) (lastOf "path" b.custom)
  /-- otherwise the first standard verb -/
  | standard {pre f post} : b.custom = [] → b.fields = pre ++ f :: post → (∀ x ∈ pre, ¬ StdVerb x.kind) →
      StdVerb f.kind → VerbPath b f.kind f.value
  /-- otherwise nothing -/
  | none : b.custom = [] → (∀ x ∈ b.fields, ¬ StdVerb x.kind) → VerbPath b [] []

/-- The fields of a method's request message. -/
def reqFields (messages : List Message) (m : ServiceMethod) : List Field :=
  ((m.request.message.bind fun i => messages[i]?).map Message.fields).getD []

/-- The request type of the method is a known message. -/
def Resolved (messages : List Message) (m : ServiceMethod) : Prop :=
  ∃ i msg, m.request.message = some i ∧ messages[i]? = some msg

/-- The methods of a definition are distinct and their request messages are known. -/
def WellNamed (sd : Svcdef) : Prop :=
  ∀ s, sd.service = some s → (s.methods.map ServiceMethod.name).Nodup ∧ ∀ m ∈ s.methods, Resolved sd.messages m

/-- What the parser returned for a file. -/
abbrev Parsed := Except Parser.PErr Parser.Service

/-- The file has an rpc whose body carries no http annotation: consolidation silently stops there. -/
def Stops (r : Parsed) : Prop := ∃ line v, r = .error (.optional line v)

/-- The file makes consolidation fail: the parser rejected it (for another reason than finding no service), or it
declares an rpc that is no method of the definition. -/
def Breaks (sd : Svcdef) (r : Parsed) : Prop :=
  (∃ e, r = .error e ∧ isOptional e = false ∧ isEOF e = false) ∨
  ∃ p hm, r = .ok p ∧ hm ∈ p.methods ∧ ∀ s, sd.service = some s → ∀ m ∈ s.methods, m.name ≠ goCamelCase hm.name

/-- The bindings a file adds to a method: those of its rpcs with the method's (camel-cased) name, in order. -/
def adds (sd : Svcdef) (m : ServiceMethod) : Parsed → List HTTPBinding
  | .ok p => (p.methods.filter fun hm => goCamelCase hm.name = m.name).flatMap fun hm =>
      hm.bindings.map (mkBinding (reqFields sd.messages m))
  | .error _ => []

end Baron.Consolidate
