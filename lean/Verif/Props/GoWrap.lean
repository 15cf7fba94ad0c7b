import Verif.Proofs.GoWrap
import Verif.Proofs.WrapParts
import Verif.Props.Wiring
import Verif.Props.Files

/-!
# C96 `WrapAllExcept` and `WrapAllLabeledExcept`: their text, and what it does
-/

namespace Baron.GoWrap

open Baron.TT
open Baron.Svcdef (Service ServiceMethod)

/-! ## The text -/

theorem chain_print (one : Str → Code) : ∀ names, (chain one names).print =
    (names.flatMap fun n => chars% "\n\t\t\tif inc == \"" ++ (n ++ (chars% "\" {" ++ ((one n).print ++ chars% "}")))) ++ chars% "\n\t" := by
  intro names
  induction names with
  | nil => rfl
  | cons n ns ih =>
    rw [chain, Code.print, ih, List.flatMap_cons]
    simp only [List.append_assoc]
    rfl

set_option maxRecDepth 16000 in
/-- The text of what is done for an rpc, and the text around. -/
theorem func_print (name type : Str) (names : List Str) (one : Str → Code) : (Func.mk name type (wrapping names one)).print =
    chars% "func (e *Endpoints) " ++ (name ++ (chars% "(middleware " ++ (type ++
    (chars% ", excluded ...string) {\n\tincluded := map[string]struct{}{" ++ ((names.flatMap fun n => chars% "\n\t\t\t\"" ++ (n ++ chars% "\": {},")) ++
    (chars% "\n\t}\n\n\tfor _, ex := range excluded {\n\t\tif _, ok := included[ex]; !ok {\n\t\t\tpanic(fmt.Sprintf(\"Excluded endpoint '%s' does not exist; see middlewares/endpoints.go\", ex))\n\t\t}\n\t\tdelete(included, ex)\n\t}\n\n\tfor inc := range included {" ++
    ((names.flatMap fun n => chars% "\n\t\t\tif inc == \"" ++ (n ++ (chars% "\" {" ++ ((one n).print ++ chars% "}")))) ++ chars% "\n\t}\n}\n"))))))) := by
  unfold Func.print wrapping
  simp only [Code.print, chain_print, List.append_assoc]
  rfl

theorem exec_wrapT {pkg : Str} {s : Service} {c : Config} {ms : List Val} :
    exec wrapT [([], dataWith pkg s c ms)] (dataWith pkg s c ms) = some (wrapAllExcept (s.methods.map (·.name))).print := by
  unfold wrapAllExcept
  rw [func_print, List.flatMap_map, List.flatMap_map]
  unfold wrapT
  refine Eq.trans (exec_text (exec_range (l := s.methods.map methodVal) rfl (each_methods fun _ => rfl) (exec_text
    (exec_range (l := s.methods.map methodVal) rfl (each_methods fun _ => rfl) exec_text_nil)))) ?_
  simp only [Code.print, List.append_assoc, List.append_nil]
  rfl

theorem exec_wrapLT {pkg : Str} {s : Service} {c : Config} {ms : List Val} :
    exec wrapLT [([], dataWith pkg s c ms)] (dataWith pkg s c ms) = some (wrapAllLabeledExcept (s.methods.map (·.name))).print := by
  unfold wrapAllLabeledExcept
  rw [func_print, List.flatMap_map, List.flatMap_map]
  unfold wrapLT
  refine Eq.trans (exec_text (exec_range (l := s.methods.map methodVal) rfl (each_methods fun _ => rfl) (exec_text
    (exec_range (l := s.methods.map methodVal) rfl (each_methods fun _ => rfl) exec_text_nil)))) ?_
  simp only [Code.print, List.append_assoc, List.append_nil]
  rfl

/-! ## The meaning -/

/-- The first exclusion that is not the name of an endpoint, or is given a second time. -/
def FirstBad (names excluded : List Str) (x : Str) : Prop :=
  ∃ pre post, excluded = pre ++ x :: post ∧ (x ∉ names ∨ x ∈ pre) ∧ Proper names pre

/-- What a wrapping function does, when the endpoints are there: if the exclusions are names of endpoints, each given once, the endpoint of every
other rpc is wrapped once and everything else is as before; otherwise there is a panic that names the first bad exclusion and
everything is as before. Whatever the order in which Go goes through the map. -/
def Wraps {E : Type} (fn : Func) (mw : Middleware E) (f : Str → E → E) (names : List Str) : Prop :=
  ∀ (order : List Str → List Str), (∀ l, (order l).Perm l) → ∀ (excluded : List Str) (before : Str → Option E),
    (∀ n ∈ names, before (field n) ≠ none) →
    (Proper names excluded → ∃ after, fn.call order mw excluded before = some (after, none) ∧ WrappedBy f names excluded before after) ∧
    (¬ Proper names excluded → ∃ x, FirstBad names excluded x ∧ fn.call order mw excluded before = some (before, some (message, x)))

theorem wraps {E : Type} {fn : Func} {mw : Middleware E} {f : Str → E → E} {names : List Str} {one : Str → Code} (hb : fn.body = wrapping names one)
    (h1 : ∀ order, OneOK order mw one f names) (h2 : ∀ n ∈ names, Plain n) (h3 : names.Nodup) : Wraps fn mw f names := by
  intro order ho excluded before h4
  constructor
  · exact call_proper hb ho (h1 order) h2 h3 before h4
  · intro he
    obtain ⟨pre, x, post, e1, e2, e3, e4⟩ := call_improper (order := order) (mw := mw) hb h2 h3 before he
    exact ⟨x, ⟨pre, post, e1, e2, e3⟩, e4⟩

/-- **C96** The transport file has a method `WrapAllExcept` that wraps the endpoint of every rpc but the excluded ones, exactly once, with the middleware. -/
theorem C96_wrap_all {fmt : Str → Str} {pkg : Str} {s : Service} {c : Config} {txt : Str}
    (h : render fmt pkg s c "baron/NAME.pb.baron.go.tmpl".toList = some txt)
    (hp : ∀ m ∈ s.methods, Plain m.name) (hn : (s.methods.map (·.name)).Nodup) :
    ∃ fn : Func, fn.name = "WrapAllExcept".toList ∧ fn.type = "endpoint.Middleware".toList ∧ Occurs fn.print txt ∧
      ∀ (E : Type) (mw : E → E), Wraps fn (.plain mw) (fun _ => mw) (s.methods.map (·.name)) := by
  refine ⟨wrapAllExcept (s.methods.map (·.name)), rfl, rfl, ?_, fun E mw => ?_⟩
  · obtain ⟨ms, -, t, hp, he⟩ := render_data (src := baronSrc) rfl h
    obtain ⟨a, h1, h2⟩ := exec_part 21 319 4 6 he
    rw [map_some wrapT_eq hp, exec_wrapT] at h1
    cases h1
    exact h2
  · refine wraps rfl (fun order n hn st e he => ?_) (fun n hn => ?_) hn
    · have he : st.fields (n ++ chars% "Endpoint") = some e := he
      simp only [Code.exec, he]
      rfl
    · obtain ⟨m, hm, rfl⟩ := List.mem_map.mp hn
      exact hp m hm

/-- **C96** It has a method `WrapAllLabeledExcept` that does the same with a middleware which is also given the name of the rpc whose endpoint it is. -/
theorem C96_wrap_all_labeled {fmt : Str → Str} {pkg : Str} {s : Service} {c : Config} {txt : Str}
    (h : render fmt pkg s c "baron/NAME.pb.baron.go.tmpl".toList = some txt)
    (hp : ∀ m ∈ s.methods, Plain m.name) (hn : (s.methods.map (·.name)).Nodup) :
    ∃ fn : Func, fn.name = "WrapAllLabeledExcept".toList ∧ fn.type = "func(string, endpoint.Endpoint) endpoint.Endpoint".toList ∧ Occurs fn.print txt ∧
      ∀ (E : Type) (mw : Str → E → E), Wraps fn (.labelled mw) mw (s.methods.map (·.name)) := by
  refine ⟨wrapAllLabeledExcept (s.methods.map (·.name)), rfl, rfl, ?_, fun E mw => ?_⟩
  · obtain ⟨ms, -, t, hp, he⟩ := render_data (src := baronSrc) rfl h
    obtain ⟨a, h1, h2⟩ := exec_part 25 528 4 6 he
    rw [map_some wrapLT_eq hp, exec_wrapLT] at h1
    cases h1
    exact h2
  · have hpl : ∀ n ∈ s.methods.map (·.name), Plain n := fun n hn => by
      obtain ⟨m, hm, rfl⟩ := List.mem_map.mp hn
      exact hp m hm
    refine wraps rfl (fun order n hn st e he => ?_) hpl hn
    have he : st.fields (n ++ chars% "Endpoint") = some e := he
    simp only [Code.exec, he, unquote_plain (hpl n hn)]
    rfl

namespace Example

open Baron.TT.Example (first second)

/-- The service of two rpcs satisfies the hypotheses. -/
example : (∀ m ∈ second.methods, Plain m.name) ∧ (second.methods.map (·.name)).Nodup := by
  unfold Plain
  decide +kernel

/-- Endpoints that are lists of what they were wrapped with. -/
def start : Str → Option (List Str) := fun f => if f = "AEndpoint".toList ∨ f = "BEndpoint".toList ∨ f = "CEndpoint".toList then some [] else none

def abc : List Str := ["A".toList, "B".toList, "C".toList]

example : Proper abc ["B".toList] ∧ ¬ Proper abc ["B".toList, "B".toList] ∧ ¬ Proper abc ["A".toList, "D".toList] := by
  unfold Proper
  decide +kernel

/-- Two of three endpoints are wrapped, the map being gone through backwards. -/
example : ((wrapAllLabeledExcept abc).call List.reverse (.labelled fun n l => n :: l) ["B".toList] start).map
    (fun r => (["AEndpoint".toList, "BEndpoint".toList, "CEndpoint".toList].map r.1, r.2)) =
    some ([some ["A".toList], some [], some ["C".toList]], none) := by
  decide +kernel

/-- A name given twice panics. -/
example : ((wrapAllExcept abc).call id (.plain fun l => "x".toList :: l) ["B".toList, "B".toList] start).map
    (fun r => (r.1 "AEndpoint".toList, r.2)) = some (some [], some (message, "B".toList)) := by
  decide +kernel

end Example

end Baron.GoWrap
