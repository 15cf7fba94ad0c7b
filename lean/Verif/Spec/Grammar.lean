import Verif.Model.Parser

/-!
# The service grammar: what is written and what it means (C09-C12)

`print` turns an abstract service definition into its significant tokens (kind, text); white space may be put anywhere
between them. `Svc.meaning` is what a reader of the proto file expects the parser to return.
-/

namespace Baron.Parser

open Baron.Lexer

/-- The tokens that are not white space, with kind and text (lines and blanks forgotten). -/
def significant (ts : List TokenGroup) : List (Tok × Str) :=
  (ts.filter (fun g => g.token ≠ .whitespace)).map fun g => (g.token, g.value)

/-- Two errors report the same cause, perhaps at different lines. -/
def SameError : PErr → PErr → Prop
  | .expected s _ v, .expected s' _ v' => s = s' ∧ v = v'
  | .optional _ v, .optional _ v' => v = v'
  | a, b => a = b

/-- Same service, or same failure up to the line number. -/
def SameOutcome : Except PErr Service → Except PErr Service → Prop
  | .ok a, .ok b => a = b
  | .error a, .error b => SameError a b
  | _, _ => False

namespace Grammar

abbrev Toks := List (Tok × Str)

def kw (s : String) : Tok × Str := (.ident, s.toList)
def comments (cs : List Str) : Toks := cs.map fun c => (.comment, c)

/-- `kind: "literal"` with comments before it; `val` is the text the literal denotes. -/
structure AField where
  pre : List Str
  kind : Str
  lit : Str
  val : Str

def AField.print (f : AField) : Toks :=
  comments f.pre ++ [(.ident, f.kind), (.symbol, ":".toList), (.stringLit, f.lit)]

/-- Tokens between a keyword and its opening brace, e.g. `(google.api.http) =` or a colon. -/
def SkipOK (s : Toks) : Prop := ∀ x ∈ s, x.1 ≠ .eof ∧ x.1 ≠ .illegal ∧ x.2 ≠ "{".toList

inductive AItem where
  | field (f : AField)
  /-- `custom: { … }` -/
  | custom (pre : List Str) (skip : Toks) (fields : List AField) (post : List Str)

def AItem.print : AItem → Toks
  | .field f => f.print
  | .custom pre skip fs post =>
    comments pre ++ [kw "custom"] ++ skip ++ [(.openBrace, "{".toList)] ++ fs.flatMap AField.print ++ comments post ++
      [(.closeBrace, "}".toList)]

/-- The body of a binding: items and comments after the last one. -/
structure ABody where
  items : List AItem
  post : List Str

def ABody.print (b : ABody) : Toks := b.items.flatMap AItem.print ++ comments b.post

/-- `additional_bindings { … }` -/
structure AAdd where
  pre : List Str
  skip : Toks
  body : ABody

def AAdd.print (a : AAdd) : Toks :=
  comments a.pre ++ [kw "additional_bindings"] ++ a.skip ++ [(.openBrace, "{".toList)] ++ a.body.print ++
    [(.closeBrace, "}".toList)]

/-- `option (google.api.http) = { … };` -/
structure AOpt where
  pre : List Str
  skip : Toks
  body : ABody
  adds : List AAdd
  post : List Str      -- comments before the closing brace
  preSemi : List Str   -- comments before the semicolon
  preEnd : List Str    -- comments before the brace closing the rpc

def AOpt.print (o : AOpt) : Toks :=
  comments o.pre ++ [kw "option"] ++ o.skip ++ [(.openBrace, "{".toList)] ++ o.body.print ++
    o.adds.flatMap AAdd.print ++ comments o.post ++ [(.closeBrace, "}".toList)] ++ comments o.preSemi ++
    [(.symbol, ";".toList)] ++ comments o.preEnd ++ [(.closeBrace, "}".toList)]

/-- `( [stream] pkg.name )` -/
structure AType where
  stream : Bool
  pkg : List Str
  name : Str

def AType.print (t : AType) : Toks :=
  [(.openParen, "(".toList)] ++ (if t.stream then [kw "stream"] else []) ++
    t.pkg.flatMap (fun p => [(.ident, p), (.symbol, ".".toList)]) ++ [(.ident, t.name), (.closeParen, ")".toList)]

inductive ATail where
  | semi
  | empty (pre : List Str)
  | http (o : AOpt)

def ATail.print : ATail → Toks
  | .semi => [(.symbol, ";".toList)]
  | .empty pre => [(.openBrace, "{".toList)] ++ comments pre ++ [(.closeBrace, "}".toList)]
  | .http o => [(.openBrace, "{".toList)] ++ o.print

structure ARpc where
  pre : List Str
  name : Str
  req : AType
  resp : AType
  tail : ATail

def ARpc.print (r : ARpc) : Toks :=
  comments r.pre ++ [kw "rpc", (.ident, r.name)] ++ r.req.print ++ [kw "returns"] ++ r.resp.print ++ r.tail.print

structure ASvc where
  name : Str
  rpcs : List ARpc
  post : List Str

def ASvc.print (s : ASvc) : Toks :=
  [kw "service", (.ident, s.name), (.openBrace, "{".toList)] ++ s.rpcs.flatMap ARpc.print ++ comments s.post ++
    [(.closeBrace, "}".toList)]

/-! ## Well-formedness -/

def AField.WF (unq : Str → Option Str) (f : AField) : Prop :=
  f.kind ≠ "custom".toList ∧ f.kind ≠ "additional_bindings".toList ∧ unq f.lit = some f.val

def AItem.WF (unq : Str → Option Str) : AItem → Prop
  | .field f => f.WF unq
  | .custom _ skip fs _ => SkipOK skip ∧ ∀ f ∈ fs, f.WF unq

def ABody.WF (unq : Str → Option Str) (b : ABody) : Prop := ∀ i ∈ b.items, i.WF unq

def AAdd.WF (unq : Str → Option Str) (a : AAdd) : Prop := SkipOK a.skip ∧ a.body.WF unq

def AOpt.WF (unq : Str → Option Str) (o : AOpt) : Prop :=
  SkipOK o.skip ∧ o.body.WF unq ∧ ∀ a ∈ o.adds, a.WF unq

/-- The first word of a type without `stream` must not be the word `stream`. -/
def AType.WF (t : AType) : Prop := t.stream = false → (t.pkg ++ [t.name]).head? ≠ some "stream".toList

def ATail.WF (unq : Str → Option Str) : ATail → Prop
  | .http o => o.WF unq
  | _ => True

def ARpc.WF (unq : Str → Option Str) (r : ARpc) : Prop := r.req.WF ∧ r.resp.WF ∧ r.tail.WF unq

def ASvc.WF (unq : Str → Option Str) (s : ASvc) : Prop := ∀ r ∈ s.rpcs, r.WF unq

/-! ## Meaning -/

/-- The description given by a run of comments: the last one, if any. -/
def descOf (cs : List Str) : Str := cs.getLast?.getD []

/-- The comments in front of each plain field: its own, preceded by those in front of any `custom` entries written
since the previous field (they have no field of their own to describe). -/
def fieldsOf : List Str → List AItem → List Field
  | _, [] => []
  | pending, .field f :: r => ⟨descOf (pending ++ f.pre), f.kind, f.val⟩ :: fieldsOf [] r
  | pending, .custom pre _ _ _ :: r => fieldsOf (pending ++ pre) r

/-- The custom pattern: the fields of the last `custom` entry. -/
def customOf (items : List AItem) : List Field :=
  items.foldl (fun acc i => match i with
    | .custom _ _ fs _ => fs.map fun f => ⟨descOf f.pre, f.kind, f.val⟩
    | .field _ => acc) []

def ABody.meaning (desc : Str) (b : ABody) : HTTPBinding := ⟨desc, fieldsOf [] b.items, customOf b.items⟩

/-- Additional bindings in order (their comments are not kept), then the primary binding. -/
def AOpt.meaning (o : AOpt) : List HTTPBinding :=
  o.adds.map (fun a => a.body.meaning []) ++ [o.body.meaning (descOf o.pre)]

/-- An rpc counts only if it carries an http option. -/
def ARpc.meaning (r : ARpc) : Option Method :=
  match r.tail with
  | .http o => some ⟨r.name, descOf r.pre, r.req.name, r.resp.name, o.meaning⟩
  | _ => none

def ASvc.meaning (s : ASvc) : Service := ⟨s.name, s.rpcs.filterMap ARpc.meaning⟩

end Grammar

end Baron.Parser
