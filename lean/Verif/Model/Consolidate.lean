import Verif.Model.Strs
import Verif.Model.Parser
import Verif.Model.Svcdef

/-!
# Model of svcdef/consolidate_http.go
-/

namespace Baron.Consolidate

open Baron.Strs Baron.Svcdef

/-- consolidate_http.go:145-163 `getVerb`. `CustomHTTPPattern` is nil exactly when it is empty (see
`Parser.HTTPBinding`). -/
def getVerb (b : Parser.HTTPBinding) : Str × Str :=
  if b.custom ≠ [] then
    b.custom.foldl (fun vp f =>
      if f.kind = "kind".toList then (f.value, vp.2)
      else if f.kind = "path".toList then (vp.1, f.value)
      else vp) ([], [])
  else
    match b.fields.find? fun f => ["get", "put", "post", "delete", "patch"].any fun k => f.kind = k.toList with
    | some f => (f.kind, f.value)
    | none => ([], [])

/-- The regular expression `{(.*?)}` (consolidate_http.go:196) after its opening brace: the shortest text without
newline up to a closing brace, and what follows. -/
def closeBrace : Str → Option (Str × Str)
  | [] => none
  | c :: r =>
    if c = '}' then some ([], r)
    else if c = '\n' then none
    else (closeBrace r).map fun x => (c :: x.1, x.2)

theorem closeBrace_length {s p r : Str} (h : closeBrace s = some (p, r)) : r.length < s.length := by
  induction s generalizing p r with
  | nil => cases h
  | cons c s ih =>
    rw [closeBrace] at h
    split at h
    · cases h; simp
    · split at h
      · cases h
      · cases hc : closeBrace s with
        | none => rw [hc] at h; cases h
        | some x =>
          rw [hc] at h
          cases h
          have := ih (p := x.1) (r := x.2) (by rw [hc])
          simp; omega

/-- `FindAllString(path, -1)` for `{(.*?)}`: leftmost matches, left to right, without the outer braces. -/
def findBraced (s : Str) : List Str :=
  match s with
  | [] => []
  | c :: r =>
    if c = '{' then
      match _h : closeBrace r with
      | some (p, rest) => p :: findBraced rest
      | none => findBraced r
    else findBraced r
termination_by s.length
decreasing_by
  · have := closeBrace_length _h; simp; omega
  · simp
  · simp

/-- consolidate_http.go:194-204 `getPathParams`: each match with all its braces removed. -/
def getPathParams (b : Parser.HTTPBinding) : List Str :=
  (findBraced (getVerb b).2).map fun p => p.filter fun c => c ≠ '{' ∧ c ≠ '}'

/-- `strings.Split(s, ".")[0]`. -/
def firstSeg (s : Str) : Str := (split '.' s).headD []

/-- consolidate_http.go:167-191 `paramLocation`. -/
def paramLocation (f : Field) (b : Parser.HTTPBinding) : Str :=
  if (getPathParams b).any fun p => goCamelCase (firstSeg p) = f.name then "path".toList
  else if b.fields.any fun o => o.kind = "body".toList ∧
      (o.value = "*".toList ∨ o.value = f.name ∨ goCamelCase (firstSeg o.value) = f.name) then "body".toList
  else "query".toList

inductive CErr where
  /-- consolidate_http.go:131 -/
  | noMethod (name : Str)
  /-- consolidate_http.go:110-115: `meth.RequestType.Message` is nil and dereferenced (a Go panic) -/
  | nilMessage
  /-- consolidate_http.go:52: the parser's error -/
  | parse (e : Parser.PErr)
  deriving Repr, DecidableEq

/-- consolidate_http.go:109-123 `createParams`: the binding it appends. -/
def mkBinding (fields : List Field) (b : Parser.HTTPBinding) : HTTPBinding :=
  ⟨(getVerb b).1, (getVerb b).2, fields.map fun f => ⟨f, paramLocation f b⟩⟩

/-- consolidate_http.go:132-134: the bindings of one rpc appended to method `m`. -/
def addBindings (messages : List Message) (m : ServiceMethod) :
    List Parser.HTTPBinding → Except CErr ServiceMethod
  | [] => .ok m
  | b :: bs =>
    match m.request.message with
    | none => .error .nilMessage
    | some i =>
      match messages[i]? with
      | none => .error .nilMessage
      | some msg => addBindings messages { m with bindings := m.bindings ++ [mkBinding msg.fields b] } bs

/-- consolidate_http.go:94-106 `getMethNamed` and the update of the method found: the first method with that name. -/
def updateMethod (messages : List Message) (hm : Parser.Method) :
    List ServiceMethod → Except CErr (List ServiceMethod)
  | [] => .error (.noMethod hm.name)
  | m :: ms =>
    if m.name = goCamelCase hm.name then do
      let m' ← addBindings messages m hm.bindings
      .ok (m' :: ms)
    else do
      let ms' ← updateMethod messages hm ms
      .ok (m :: ms')

/-- consolidate_http.go:127-136: the loop over the parsed rpcs. -/
def assembleLoop (messages : List Message) : List Parser.Method → List ServiceMethod →
    Except CErr (List ServiceMethod)
  | [], ms => .ok ms
  | hm :: hms, ms => do
    let ms' ← updateMethod messages hm ms
    assembleLoop messages hms ms'

/-- consolidate_http.go:93-138 `assembleHTTPParams`. -/
def assemble (sd : Svcdef) (p : Parser.Service) : Except CErr Svcdef :=
  match sd.service with
  | none =>
    match p.methods with
    | [] => .ok sd
    | hm :: _ => .error (.noMethod hm.name)
  | some svc => do
    let ms ← assembleLoop sd.messages p.methods svc.methods
    .ok { sd with service := some { svc with methods := ms } }

/-- consolidate_http.go:20-23 `isOptionalError`. -/
def isOptional : Parser.PErr → Bool
  | .optional _ _ => true
  | _ => false

/-- consolidate_http.go:25-30 `isEOF`. -/
def isEOF : Parser.PErr → Bool
  | .unexpectedEOF => true
  | _ => false

/-- consolidate_http.go:38-88 `consolidateHTTP`, given what the parser returns for each file in the order the files
are visited. -/
def consolidate (sd : Svcdef) : List (Except Parser.PErr Parser.Service) → Except CErr Svcdef
  | [] => .ok sd
  | .error e :: rest =>
    if isOptional e then .ok sd
    else if isEOF e then consolidate sd rest
    else .error (.parse e)
  | .ok p :: rest => do
    let sd' ← assemble sd p
    consolidate sd' rest

end Baron.Consolidate
