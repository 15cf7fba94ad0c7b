import Verif.Spec.Protoc
import Verif.Proofs.CommandLine
import Verif.Proofs.Paths
import Verif.Props.Command

/-!
# C77: how protoc is called. C78: the command line
-/

namespace Baron.Main

open Baron.Gen Baron.Cli Baron.HTTP
open Baron.Start (joinPath clean cleanStep)

/-! ## Characters of cleaned paths -/

theorem mem_join {c sep : Char} : ∀ {l : List Str}, c ∈ join sep l → c = sep ∨ ∃ s ∈ l, c ∈ s
  | [], h => by cases h
  | [a], h => .inr ⟨a, List.mem_cons_self, h⟩
  | a :: b :: l, h => by
    have e : join sep (a :: b :: l) = a ++ sep :: join sep (b :: l) := rfl
    rw [e, List.mem_append, List.mem_cons] at h
    rcases h with h | h | h
    · exact .inr ⟨a, List.mem_cons_self, h⟩
    · exact .inl h
    · rcases mem_join h with h | ⟨s, hs, h⟩
      · exact .inl h
      · exact .inr ⟨s, List.mem_cons_of_mem _ hs, h⟩

theorem mem_cleanStep {r : Bool} {st : List Str} {seg s : Str} (h : s ∈ cleanStep r st seg) : s ∈ st ∨ s = seg := by
  unfold cleanStep at h
  split at h
  · exact .inl h
  · split at h
    · split at h
      · split at h
        · cases h
        · exact .inr (by simpa using h)
      · split at h
        · rcases List.mem_cons.1 h with h | h
          · exact .inr h
          · exact .inl h
        · exact .inl (List.mem_cons_of_mem _ h)
    · rcases List.mem_cons.1 h with h | h
      · exact .inr h
      · exact .inl h

theorem mem_cleanFold {r : Bool} {s : Str} : ∀ {segs st : List Str}, s ∈ segs.foldl (cleanStep r) st → s ∈ st ∨ s ∈ segs
  | [], _, h => .inl h
  | a :: l, st, h => by
    rcases mem_cleanFold (segs := l) h with h | h
    · rcases mem_cleanStep h with h | h
      · exact .inl h
      · exact .inr (h ▸ List.mem_cons_self)
    · exact .inr (List.mem_cons_of_mem _ h)

theorem mem_split {c sep : Char} {s t : Str} (h : t ∈ split sep s) (hc : c ∈ t) : c ∈ s := by
  have e := HTTP.join_split sep s
  rw [← e]
  have : ∀ l : List Str, t ∈ l → c ∈ join sep l := by
    intro l
    induction l with
    | nil => intro h; cases h
    | cons a l ih =>
      intro h
      cases l with
      | nil =>
        have : t = a := by simpa using h
        exact this ▸ hc
      | cons b l =>
        show c ∈ a ++ sep :: join sep (b :: l)
        rw [List.mem_append, List.mem_cons]
        rcases List.mem_cons.1 h with h | h
        · exact .inl (h ▸ hc)
        · exact .inr (.inr (ih h))
  exact this _ h

theorem mem_clean {c : Char} {s : Str} (h : c ∈ clean s) (h1 : c ≠ '/') (h2 : c ≠ '.') : c ∈ s := by
  unfold clean at h
  have key : c ∈ join '/' ((split '/' s).foldl (cleanStep (decide (s.head? = some '/'))) []).reverse → c ∈ s := by
    intro h
    rcases mem_join h with h | ⟨t, ht, h⟩
    · exact absurd h h1
    · rcases mem_cleanFold (List.mem_reverse.1 ht) with ht | ht
      · cases ht
      · exact mem_split ht h
  simp only at h
  split at h
  · rcases List.mem_cons.1 h with h | h
    · exact absurd h h1
    · exact key h
  · split at h
    · exact absurd (by simpa using h) h2
    · exact key h

theorem clean_ne {s : Str} : clean s ≠ [] := by
  unfold clean
  simp only
  split
  · simp
  · split
    · simp
    · assumption

theorem joinPath_ne (a b : Str) : joinPath a b ≠ [] := by
  unfold joinPath
  split <;> exact clean_ne

theorem mem_joinPath {c : Char} {a b : Str} (h : c ∈ joinPath a b) (h1 : c ≠ '/') (h2 : c ≠ '.') : c ∈ a ∨ c ∈ b := by
  unfold joinPath at h
  split at h
  · exact .inr (mem_clean h h1 h2)
  · have := mem_clean h h1 h2
    rw [List.mem_append, List.mem_cons] at this
    rcases this with h | h | h
    · exact .inl h
    · exact absurd h h1
    · exact .inr h

theorem resolve_joinPath (cwd : Place) (a b : Str) (hb : b.head? ≠ some '/') :
    resolve cwd (joinPath a b) = walk (resolve cwd a) b := by
  unfold joinPath
  split
  · rename_i h
    subst h
    rw [resolve_clean]
    unfold resolve
    rw [if_neg hb, if_neg (by nofun), walk_nil]
  · rename_i h
    rw [resolve_clean]
    unfold resolve
    cases a with
    | nil => exact absurd rfl h
    | cons x r =>
      have e : (x :: r ++ '/' :: b).head? = (x :: r).head? := rfl
      rw [e]
      by_cases hx : (x :: r).head? = some '/'
      · rw [if_pos hx, if_pos hx, walk_append]
      · rw [if_neg hx, if_neg hx, walk_append]

/-! ## Reading the arguments -/

theorem read_plain (c : Protoc.Call) (a : Str) (h : a.head? = some '/') :
    Protoc.arg c a = some { c with inputs := c.inputs ++ [a] } := by
  cases a with
  | nil => cases h
  | cons x r =>
    have : x = '/' := by simpa using h
    subst this
    rfl

theorem read_import (v : Str) (h : v ≠ []) (h1 : ':' ∉ v) (h2 : '=' ∉ v) :
    Protoc.importDirs v = [([], v)] := by
  unfold Protoc.importDirs
  rw [split_none _ _ h1]
  simp only [List.filter_cons, List.filter_nil, ne_eq, h, not_false_eq_true, decide_true, if_true, List.map_cons, List.map_nil]
  unfold Protoc.importDir
  rw [if_neg h2]

theorem read_I (c : Protoc.Call) (v : Str) (h : v ≠ []) (h1 : ':' ∉ v) (h2 : '=' ∉ v) :
    Protoc.arg c ("-I".toList ++ v) = some { c with imports := c.imports ++ [([], v)] } := by
  show Protoc.arg c ('-' :: 'I' :: v) = _
  unfold Protoc.arg
  simp only [if_neg h, read_import v h h1 h2]

theorem read_path (c : Protoc.Call) (v : Str) (h : v ≠ []) (h1 : ':' ∉ v) (h2 : '=' ∉ v) :
    Protoc.arg c ("--proto_path=".toList ++ v) = some { c with imports := c.imports ++ [([], v)] } := by
  show Protoc.arg c ('-' :: '-' :: ("proto_path".toList ++ '=' :: v)) = _
  unfold Protoc.arg
  obtain ⟨e1, e2⟩ := takeWhile_sep "proto_path".toList v (by decide)
  simp only [e1, e2, List.tail_cons, if_true, List.mem_append, List.mem_cons, true_or, or_true, read_import v h h1 h2]

theorem read_out (c : Protoc.Call) (n v : Str) (hn : '=' ∉ n) (hv : ':' ∉ v) :
    Protoc.arg c ("--".toList ++ (n ++ "_out".toList ++ '=' :: v)) =
      some { c with outs := c.outs ++ [(n, [], v)] } := by
  show Protoc.arg c ('-' :: '-' :: (n ++ "_out".toList ++ '=' :: v)) = _
  unfold Protoc.arg
  have h4 : '=' ∉ n ++ "_out".toList := by
    rw [List.mem_append]; exact fun h => h.elim hn (by decide)
  obtain ⟨e1, e2⟩ := takeWhile_sep (n ++ "_out".toList) v h4
  have h5 : n ++ "_out".toList ≠ "proto_path".toList := by
    intro e
    have := congrArg List.getLast? e
    rw [List.getLast?_append, show "_out".toList.getLast? = some 't' by decide +kernel,
      show "proto_path".toList.getLast? = some 'h' by decide +kernel] at this
    exact absurd this (by simp)
  have h6 : (n ++ "_out".toList).length - 4 = n.length := by rw [List.length_append]; rfl
  simp only [e1, e2, List.tail_cons, if_neg h5, if_pos (List.suffix_append n "_out".toList), h6, List.take_left',
    List.mem_append, List.mem_cons, true_or, or_true, if_true]
  unfold Protoc.outDir
  rw [if_neg hv]

theorem foldlM_imports (gopath : List Str) (hg : ∀ g ∈ gopath, ':' ∉ g ∧ '=' ∉ g) (rest : List Str) (s b : Str)
    (hs : ':' ∉ s ∧ '=' ∉ s) (hb : ':' ∉ b ∧ '=' ∉ b) : ∀ c : Protoc.Call,
    ((gopath.flatMap fun gp => ["-I".toList ++ joinPath gp s, "-I".toList ++ joinPath gp b]) ++ rest).foldlM Protoc.arg c =
      rest.foldlM Protoc.arg { c with imports := c.imports ++ gopath.flatMap fun gp =>
        [([], joinPath gp s), ([], joinPath gp b)] } := by
  have nomem : ∀ {g t : Str} {x : Char}, x ≠ '/' → x ≠ '.' → x ∉ g → x ∉ t → x ∉ joinPath g t := by
    intro g t x h1 h2 h3 h4 h
    exact (mem_joinPath h h1 h2).elim h3 h4
  induction gopath with
  | nil => intro c; simp
  | cons g l ih =>
    intro c
    obtain ⟨g1, g2⟩ := hg g List.mem_cons_self
    rw [List.flatMap_cons, List.append_assoc, List.cons_append, List.cons_append, List.nil_append, List.foldlM_cons,
      read_I c _ (joinPath_ne _ _) (nomem (by decide) (by decide) g1 hs.1) (nomem (by decide) (by decide) g2 hs.2)]
    simp only [Option.bind_eq_bind, Option.bind_some]
    rw [List.foldlM_cons, read_I _ _ (joinPath_ne _ _) (nomem (by decide) (by decide) g1 hb.1) (nomem (by decide) (by decide) g2 hb.2)]
    simp only [Option.bind_eq_bind, Option.bind_some]
    rw [ih (fun x h => hg x (List.mem_cons_of_mem _ h))]
    simp only [List.flatMap_cons, List.append_assoc, List.cons_append, List.nil_append]

theorem foldlM_inputs (l : List Str) (h : ∀ a ∈ l, a.head? = some '/') : ∀ c : Protoc.Call,
    l.foldlM Protoc.arg c = some { c with inputs := c.inputs ++ l } := by
  induction l with
  | nil => intro c; simp
  | cons a l ih =>
    intro c
    rw [List.foldlM_cons, read_plain c a (h a List.mem_cons_self)]
    simp only [Option.bind_eq_bind, Option.bind_some]
    rw [ih fun x hx => h x (List.mem_cons_of_mem _ hx)]
    simp

theorem goPath_mem {env dflt g : Str} (h : g ∈ goPath env dflt) : ':' ∉ g := by
  have : ∀ s, g ∈ splitList s → ':' ∉ g := by
    intro s hs
    unfold splitList at hs
    split at hs
    · cases hs
    · exact split_mem ':' s g hs
  unfold goPath at h
  split at h
  · exact this _ h
  · exact this _ h

/-! ## C77 -/

/-- **C77** What protoc is asked to do: with the .proto files of the command line (C59) and GOPATH, protoc is run if and only
if both plugins are found, and then it understands: the inputs are the .proto files, under their absolute paths and in the
order given; imports are looked up in their directory, then, for each directory of GOPATH in order, in its `src` and in the
googleapis of baron below it; both plugins write to the directory asked for, next to the paths of the sources. For
directories without colon or equals sign. -/
theorem C77_call {cwd : Place} (hc : cwd.WF) {raw protos : List Str} (hp : cleanProtofilePath cwd.text raw = some protos)
    {p : Str} (hin : p ∈ raw) {out : Str} (hout : ':' ∉ out) {env dflt : Str}
    (hd : ':' ∉ Place.text (resolve cwd p).dropLast ∧ '=' ∉ Place.text (resolve cwd p).dropLast)
    (hg : ∀ g ∈ goPath env dflt, '=' ∉ g) :
    ∃ args c, (∀ h : Host, generatePBDotGo h protos (goPath env dflt) out =
        if h.found "protoc-gen-go" = true ∧ h.found "protoc-gen-go-grpc" = true then h.exec args else none) ∧
      Protoc.read args = some c ∧
      c.inputs = raw.map (fun a => (resolve cwd a).text) ∧
      (∀ i ∈ c.imports, i.1 = []) ∧
      c.imports.map (fun i => resolve cwd i.2) =
        (resolve cwd p).dropLast :: ((goPath env dflt).flatMap fun g =>
          [resolve cwd g ++ ["src".toList],
           resolve cwd g ++ ["src".toList, "github.com".toList, "teamlint".toList, "baron".toList, "third_party".toList,
            "googleapis".toList]]) ∧
      c.outs = [("go".toList, [], out), ("go-grpc".toList, [], out)] ∧
      c.opts = [("go".toList, "paths=source_relative".toList), ("go-grpc".toList, "paths=source_relative".toList)] ∧
      c.switches = ["experimental_allow_proto3_optional".toList] := by
  obtain ⟨hl, d, hdir⟩ := (C59_arguments hc raw protos).1 hp
  have hfirst : dir (protos.headD []) = Place.text (resolve cwd p).dropLast := by
    rw [hl]
    cases raw with
    | nil => cases hin
    | cons a l =>
      show dir (resolve cwd a).text = _
      rw [dir_text (resolve_wf hc a), hdir a List.mem_cons_self, hdir p hin]
  have hwf : Place.WF (resolve cwd p).dropLast := fun n hn => resolve_wf hc p n (List.dropLast_subset _ hn)
  refine ⟨protocArgs protos (goPath env dflt) out, ⟨["experimental_allow_proto3_optional".toList],
    ([], Place.text (resolve cwd p).dropLast) :: ((goPath env dflt).flatMap fun gp =>
      [([], joinPath gp "src".toList), ([], joinPath gp "src/github.com/teamlint/baron/third_party/googleapis".toList)]),
    [("go".toList, [], out), ("go-grpc".toList, [], out)],
    [("go".toList, "paths=source_relative".toList), ("go-grpc".toList, "paths=source_relative".toList)], protos⟩,
    ?_, ?_, hl, ?_, ?_, rfl, rfl, rfl⟩
  · intro h
    unfold generatePBDotGo
    cases h.found "protoc-gen-go" <;> cases h.found "protoc-gen-go-grpc" <;> simp
  · unfold Protoc.read protocArgs
    rw [hfirst, List.cons_append, List.cons_append, List.cons_append, List.cons_append, List.foldlM_cons,
      show Protoc.arg ⟨[], [], [], [], []⟩ "--experimental_allow_proto3_optional".toList =
        some ⟨["experimental_allow_proto3_optional".toList], [], [], [], []⟩ by decide +kernel]
    simp only [Option.bind_eq_bind, Option.bind_some]
    rw [List.foldlM_cons, read_path _ _ (by unfold Place.text; simp) hd.1 hd.2]
    simp only [Option.bind_eq_bind, Option.bind_some]
    rw [List.append_assoc, foldlM_imports _ (fun g h => ⟨goPath_mem h, hg g h⟩) _ _ _
      (by refine ⟨?_, ?_⟩ <;> decide +kernel) (by refine ⟨?_, ?_⟩ <;> decide +kernel)]
    unfold pluginArgs
    rw [List.cons_append, List.cons_append, List.cons_append, List.cons_append, List.nil_append, List.foldlM_cons,
      show "--go_out=".toList ++ out = "--".toList ++ ("go".toList ++ "_out".toList ++ '=' :: out) from rfl,
      read_out _ _ _ (by decide) hout]
    simp only [Option.bind_eq_bind, Option.bind_some]
    rw [List.foldlM_cons, show ∀ c : Protoc.Call, Protoc.arg c "--go_opt=paths=source_relative".toList =
      some { c with opts := c.opts ++ [("go".toList, "paths=source_relative".toList)] } from fun c => rfl]
    simp only [Option.bind_eq_bind, Option.bind_some]
    rw [List.foldlM_cons,
      show "--go-grpc_out=".toList ++ out = "--".toList ++ ("go-grpc".toList ++ "_out".toList ++ '=' :: out) from rfl,
      read_out _ _ _ (by decide) hout]
    simp only [Option.bind_eq_bind, Option.bind_some]
    rw [List.foldlM_cons, show ∀ c : Protoc.Call, Protoc.arg c "--go-grpc_opt=paths=source_relative".toList =
      some { c with opts := c.opts ++ [("go-grpc".toList, "paths=source_relative".toList)] } from fun c => rfl]
    simp only [Option.bind_eq_bind, Option.bind_some]
    rw [foldlM_inputs]
    · rfl
    · intro a ha
      rw [hl] at ha
      obtain ⟨x, -, rfl⟩ := List.mem_map.1 ha
      rfl
  · intro i hi
    rcases List.mem_cons.1 hi with rfl | hi
    · rfl
    · obtain ⟨g, -, hi⟩ := List.mem_flatMap.1 hi
      rcases List.mem_cons.1 hi with rfl | hi
      · rfl
      · rcases List.mem_cons.1 hi with rfl | hi
        · rfl
        · cases hi
  · rw [List.map_cons, List.map_flatMap]
    refine congr (congrArg _ ?_) ?_
    · show resolve cwd (Place.text _) = _
      generalize (resolve cwd p).dropLast = z at hwf
      unfold resolve
      rw [if_pos (show (Place.text _).head? = some '/' from rfl), walk_text hwf, List.nil_append]
    · refine congrArg (fun f => (goPath env dflt).flatMap f) (funext fun g => ?_)
      simp only [List.map_cons, List.map_nil]
      have w : ∀ q : Place, walk q "src/github.com/teamlint/baron/third_party/googleapis".toList =
          q ++ ["src".toList, "github.com".toList, "teamlint".toList, "baron".toList, "third_party".toList,
            "googleapis".toList] := by
        intro q
        rw [← walk_join (q := ["src".toList, "github.com".toList, "teamlint".toList, "baron".toList, "third_party".toList,
            "googleapis".toList])]
        · rfl
        · intro n hn
          simp only [List.mem_cons, List.not_mem_nil, or_false] at hn
          rcases hn with rfl | rfl | rfl | rfl | rfl | rfl <;> (refine ⟨?_, ?_, ?_, ?_⟩ <;> decide +kernel)
      rw [resolve_joinPath _ _ _ (by decide +kernel), resolve_joinPath _ _ _ (by decide +kernel), w,
        walk_name (n := "src".toList) (by refine ⟨?_, ?_, ?_, ?_⟩ <;> decide +kernel)]

/-- **C77** protoc knows each of the .proto files by its bare name, whatever GOPATH is: the directory of the files comes
first. So the plugins write their files right into the directory asked for. -/
theorem C77_names {cwd : Place} (hc : cwd.WF) {raw protos : List Str} (hp : cleanProtofilePath cwd.text raw = some protos)
    {p q : Str} (h : p ∈ raw) (hq : q ∈ raw) (more : List Place) {d : Place} {n : Str} (hn : resolve cwd q = d ++ [n]) :
    Protoc.nameIn ((resolve cwd p).dropLast :: more) (resolve cwd q) = some [n] := by
  obtain ⟨-, x, hx⟩ := (C59_arguments hc raw protos).1 hp
  have : (resolve cwd p).dropLast = d := by
    rw [hx p h, ← hx q hq, hn, List.dropLast_concat]
  rw [this, hn]
  unfold Protoc.nameIn
  rw [if_pos (List.prefix_append _ _), List.drop_left]

/-- **C77** The files baron reads after that are those the plugins write if and only if the name of the .proto file has no
dot or ends with `.proto` or `.protodevel`. -/
theorem C77_found {d : Place} (hd : d.WF) {n : Str} (hn : IsName n) :
    (pbFile (d ++ [n] : Place).text d.text = (d ++ [Protoc.stripped n ++ ".pb.go".toList] : Place).text ↔
      '.' ∉ n ∨ ∃ x, n = x ++ ".proto".toList ∨ n = x ++ ".protodevel".toList) ∧
    (grpcFile (d ++ [n] : Place).text d.text = (d ++ [Protoc.stripped n ++ "_grpc.pb.go".toList] : Place).text ↔
      '.' ∉ n ∨ ∃ x, n = x ++ ".proto".toList ∨ n = x ++ ".protodevel".toList) := by
  have key : trimSuffix n (ext n) = Protoc.stripped n ↔
      '.' ∉ n ∨ ∃ x, n = x ++ ".proto".toList ∨ n = x ++ ".protodevel".toList := by
    by_cases hdot : '.' ∈ n
    · obtain ⟨s, e, rfl, he⟩ : ∃ s e, n = s ++ '.' :: e ∧ '.' ∉ e := by
        clear hn
        induction n with
        | nil => cases hdot
        | cons c r ih =>
          by_cases hr : '.' ∈ r
          · obtain ⟨s, e, rfl, he⟩ := ih hr
            exact ⟨c :: s, e, rfl, he⟩
          · have : c = '.' := by
              rcases List.mem_cons.1 hdot with h | h
              · exact h.symm
              · exact absurd h hr
            exact ⟨[], r, by rw [this]; rfl, hr⟩
      have suf : ∀ w : Str, '.' ∉ w → ('.' :: w <:+ s ++ '.' :: e ↔ w = e) := by
        intro w hw
        constructor
        · rintro ⟨x, hx⟩
          have := ext_of (s := x) hw
          rw [hx, ext_of he] at this
          exact (List.cons.inj this).2.symm
        · rintro rfl
          exact List.suffix_append _ _
      rw [ext_of he, Cli.trimSuffix_append]
      unfold Protoc.stripped
      rw [show ".proto".toList = '.' :: "proto".toList from rfl, show ".protodevel".toList = '.' :: "protodevel".toList from rfl]
      have h1 := suf "proto".toList (by decide)
      have h2 := suf "protodevel".toList (by decide)
      by_cases e1 : "proto".toList = e
      · rw [if_pos (h1.2 e1)]
        subst e1
        rw [show (s ++ '.' :: "proto".toList).length - 6 = s.length by rw [List.length_append]; rfl, List.take_left]
        exact ⟨fun _ => .inr ⟨s, .inl rfl⟩, fun _ => rfl⟩
      · rw [if_neg (fun h => e1 (h1.1 h))]
        by_cases e2 : "protodevel".toList = e
        · rw [if_pos (h2.2 e2)]
          subst e2
          rw [show (s ++ '.' :: "protodevel".toList).length - 11 = s.length by rw [List.length_append]; rfl, List.take_left]
          exact ⟨fun _ => .inr ⟨s, .inr rfl⟩, fun _ => rfl⟩
        · rw [if_neg (fun h => e2 (h2.1 h))]
          constructor
          · intro h
            have := congrArg List.length h
            rw [List.length_append, List.length_cons] at this
            omega
          · rintro (h | ⟨x, h | h⟩)
            · exact absurd hdot h
            · exact absurd (h1.1 (h ▸ List.suffix_append _ _)) e1
            · exact absurd (h2.1 (h ▸ List.suffix_append _ _)) e2
    · have e0 : ext n = [] := by unfold ext; rw [if_neg hdot]
      have t0 : trimSuffix n [] = n := by
        have   := Cli.trimSuffix_append n []
        rwa [List.append_nil] at this
      have ns : ∀ w : Str, ¬ '.' :: w <:+ n := by
        rintro w ⟨x, rfl⟩
        exact hdot (by simp)
      rw [e0, t0]
      unfold Protoc.stripped
      rw [if_neg (show ¬ ".proto".toList <:+ n from ns "proto".toList),
        if_neg (show ¬ ".protodevel".toList <:+ n from ns "protodevel".toList)]
      exact ⟨fun _ => .inl hdot, fun _ => rfl⟩
  have noslash : ∀ {m : Str}, m <+: n → '/' ∉ m := fun hm h => hn.2.2.2 (hm.subset h)
  have s1 : '/' ∉ trimSuffix n (ext n) := by
    unfold trimSuffix
    split
    · exact noslash (List.take_prefix _ _)
    · exact hn.2.2.2
  have s2 : '/' ∉ Protoc.stripped n := by
    unfold Protoc.stripped
    split
    · exact noslash (List.take_prefix _ _)
    · split
      · exact noslash (List.take_prefix _ _)
      · exact hn.2.2.2
  have fin : ∀ w : Str, '/' ∉ w → 3 ≤ w.length →
      (joinPath d.text (trimSuffix (base (d ++ [n] : Place).text) (pathExt (d ++ [n] : Place).text) ++ w) =
        (d ++ [Protoc.stripped n ++ w] : Place).text ↔ trimSuffix n (ext n) = Protoc.stripped n) := by
    intro w hw hl
    rw [base_concat hn, pathExt_concat hn, joinPath_text hd, walk_name (isName_long s1 hw hl)]
    constructor
    · intro h
      have wf : ∀ {x : Str}, '/' ∉ x → Place.WF (d ++ [x ++ w]) := by
        intro x hx m hm
        rcases List.mem_append.1 hm with hm | hm
        · exact hd m hm
        · rw [List.mem_singleton.1 hm]; exact isName_long hx hw hl
      have := List.append_cancel_left (text_inj (wf s1) (wf s2) h)
      exact List.append_cancel_right (List.cons.inj this).1
    · intro h; rw [h]
  exact ⟨(fin _ (by decide) (by decide)).trans key, (fin _ (by decide) (by decide)).trans key⟩

/-- The hypotheses of `C77_call` are met: two files below the working directory, one of which looks like a flag, and two
directories in GOPATH. protoc is called with these arguments. -/
example :
    let cwd : Place := ["home".toList, "me".toList]
    cwd.WF ∧ cleanProtofilePath cwd.text ["api/-x.proto".toList, "api/b.proto".toList] =
      some ["/home/me/api/-x.proto".toList, "/home/me/api/b.proto".toList] ∧
    goPath "/go:rel".toList "/home/me/go".toList = ["/go".toList, "rel".toList] ∧
    goPath [] "/home/me/go".toList = ["/home/me/go".toList] ∧
    protocArgs ["/home/me/api/-x.proto".toList, "/home/me/api/b.proto".toList] ["/go".toList, "rel".toList] "/tmp/o".toList =
      ["--experimental_allow_proto3_optional", "--proto_path=/home/me/api", "-I/go/src",
       "-I/go/src/github.com/teamlint/baron/third_party/googleapis", "-Irel/src",
       "-Irel/src/github.com/teamlint/baron/third_party/googleapis", "--go_out=/tmp/o", "--go_opt=paths=source_relative",
       "--go-grpc_out=/tmp/o", "--go-grpc_opt=paths=source_relative", "/home/me/api/-x.proto",
       "/home/me/api/b.proto"].map String.toList := by
  refine ⟨?_, ?_, ?_, ?_, ?_⟩
  · intro n hn
    simp only [List.mem_cons, List.not_mem_nil, or_false] at hn
    rcases hn with rfl | rfl <;> (refine ⟨?_, ?_, ?_, ?_⟩ <;> decide +kernel)
  all_goals decide +kernel

/-- **C77** The conditions on the directory are needed: below a directory with a colon or an equals sign in its name,
protoc looks for imports, and the plugins write, somewhere else. -/
theorem C77_colon_witness :
    (Protoc.read (protocArgs ["/a:b/x.proto".toList] [] "/a:b".toList)).map (fun c => (c.imports.map (·.2), c.outs)) =
      some (["/a".toList, "b".toList], [("go".toList, "/a".toList, "b".toList), ("go-grpc".toList, "/a".toList, "b".toList)]) ∧
    (Protoc.read (protocArgs ["/a=b/x.proto".toList] [] "/a=b".toList)).map (·.imports) =
      some [("/a".toList, "b".toList)] := by decide +kernel

/-- **C77** A file with another extension: the plugins write `x.txt.pb.go`, baron looks for `x.pb.go`. -/
theorem C77_extension_witness :
    pbFile "/a/x.txt".toList "/a".toList = "/a/x.pb.go".toList ∧
    Protoc.stripped "x.txt".toList ++ ".pb.go".toList = "x.txt.pb.go".toList ∧
    pbFile "/a/x.protodevel".toList "/a".toList = "/a/x.pb.go".toList ∧
    Protoc.stripped "x.protodevel".toList ++ ".pb.go".toList = "x.pb.go".toList := by decide +kernel

/-! ## C78 -/

/-- **C78** A command line is accepted if and only if the grammar has a reading for it; then flags mean what the last
setting of each says and the other arguments keep their order. -/
theorem C78_reading (argv : List Str) (f : Flags) (fs : List Str) :
    parseArgs none {} argv = some (f, fs) ↔ ∃ ss, Line argv ss fs ∧ f = meaning ss := parseArgs_iff argv f fs

/-- **C78** A command line without a reading (an unknown flag, a flag without its value, a switch that is neither on nor
off) is an error, and nothing is written. -/
theorem C78_rejected (h : Host) {argv : List Str} (d : Disk) (hn : ¬ ∃ ss fs, Line argv ss fs) :
    main h argv d = ⟨.failure, d⟩ := by
  unfold main
  cases hp : parseArgs none {} argv with
  | none => rfl
  | some x =>
    obtain ⟨ss, hL, -⟩ := (parseArgs_iff argv x.1 x.2).1 hp
    exact absurd ⟨ss, x.2, hL⟩ hn

/-- **C78** With `-h` or `-V`, whatever else is given, baron ends well and writes nothing. -/
theorem C78_info (h : Host) {argv : List Str} {ss : List Setting} {fs : List Str} (d : Disk) (hL : Line argv ss fs)
    (hh : isOn ss .help = true ∨ isOn ss .version = true) : main h argv d = ⟨.success, d⟩ := by
  unfold main
  rw [(parseArgs_iff argv _ fs).2 ⟨ss, hL, rfl⟩]
  have e1 : (meaning ss).help = isOn ss .help := rfl
  have e2 : (meaning ss).version = isOn ss .version := rfl
  simp only [e1, e2]
  rcases hh with hh | hh
  · rw [if_pos hh]
  · rw [if_pos hh]; split <;> rfl

/-- **C78** With `-s` (and neither `-h` nor `-V`), baron writes a start file (C31, C40): the first of the other arguments is
its name, the second one its directory, both may be missing and further ones do not matter; nothing is generated, and the
status tells whether it was written. -/
theorem C78_start (h : Host) {argv : List Str} {ss : List Setting} {fs : List Str} (d : Disk) (hL : Line argv ss fs)
    (h1 : isOn ss .help = false) (h2 : isOn ss .version = false) (hs : isOn ss .start = true) :
    (main h argv d).disk.world = d.world ∧
    (main h argv d).disk.files = (Start.start h.start (fs[0]?.getD []) (fs[1]?.getD []) d.files).2 ∧
    ((main h argv d).exit = .success ↔ (Start.start h.start (fs[0]?.getD []) (fs[1]?.getD []) d.files).1 = 0) := by
  unfold main
  rw [(parseArgs_iff argv _ fs).2 ⟨ss, hL, rfl⟩]
  have e1 : (meaning ss).help = isOn ss .help := rfl
  have e2 : (meaning ss).version = isOn ss .version := rfl
  have e3 : (meaning ss).start = isOn ss .start := rfl
  have a0 : fs.headD [] = fs[0]?.getD [] := by cases fs <;> rfl
  have a1 : fs.tail.headD [] = fs[1]?.getD [] := by
    cases fs with
    | nil => rfl
    | cons a l => cases l <;> rfl
  simp only [e1, e2, e3, h1, h2, hs, if_true, Bool.false_eq_true, if_false, a0, a1]
  generalize Start.start h.start (fs[0]?.getD []) (fs[1]?.getD []) d.files = r
  obtain ⟨n, x⟩ := r
  cases n with
  | zero => exact ⟨rfl, rfl, by simp⟩
  | succ n => exact ⟨rfl, rfl, by simp⟩

/-- **C78** Without `-h`, `-V` and `-s`, baron generates a service (C61, C62) from the other arguments, into the directory
`-o` tells (`./` without it): GOPATH is what the environment says, or the default, and its first directory is the one that
counts for `-o`; protoc is called as C77 says; `-c` and `-t` (`all` without it) are for the generator. The start file is not
touched. -/
theorem C78_run (h : Host) {argv : List Str} {ss : List Setting} {fs : List Str} (d : Disk) (hL : Line argv ss fs)
    (h1 : isOn ss .help = false) (h2 : isOn ss .version = false) (h3 : isOn ss .start = false) :
    ∃ sys : Cli.Sys, (main h argv d).exit = (command sys (textOf ss .svcout "./".toList) fs d.world).1 ∧
      (main h argv d).disk.world = (command sys (textOf ss .svcout "./".toList) fs d.world).2 ∧
      (main h argv d).disk.files = d.files ∧
      sys.gopath = (goPath h.env h.dflt)[0]?.getD [] ∧
      (∀ protos, sys.protoc protos = generatePBDotGo h protos (goPath h.env h.dflt) (dir (protos[0]?.getD []))) ∧
      (∃ m, sys = { h.sys (isOn ss .client) (textOf ss .transport "all".toList) with
        gopath := sys.gopath, protoc := sys.protoc, mkdir := m } ∧
        (m = true ↔ (h.sys (isOn ss .client) (textOf ss .transport "all".toList)).mkdir = true ∧
          (goPath h.env h.dflt = [] → textOf ss .svcout "./".toList = []))) := by
  refine ⟨runSys h (meaning ss), ?_⟩
  unfold main
  rw [(parseArgs_iff argv _ fs).2 ⟨ss, hL, rfl⟩]
  have e1 : (meaning ss).help = isOn ss .help := rfl
  have e2 : (meaning ss).version = isOn ss .version := rfl
  have e3 : (meaning ss).start = isOn ss .start := rfl
  have e4 : (meaning ss).svcOut = textOf ss .svcout "./".toList := rfl
  simp only [e1, e2, e3, h1, h2, h3, Bool.false_eq_true, if_false]
  refine ⟨by trivial, by trivial, by trivial, ?_, fun protos => ?_, _, rfl, ?_⟩
  · show (goPath h.env h.dflt).headD [] = _
    cases goPath h.env h.dflt <;> rfl
  · show generatePBDotGo h protos (goPath h.env h.dflt) (dir (protos.headD [])) = _
    cases protos <;> rfl
  · show ((h.sys _ _).mkdir && _) = true ↔ _
    rw [Bool.and_eq_true]
    refine and_congr Iff.rfl ?_
    simp only [Bool.not_eq_true', Bool.and_eq_false_iff, beq_eq_false_iff_ne, bne_eq_false_iff_eq, ne_eq, e4]
    exact Decidable.imp_iff_not_or.symm

/-- **C78** Without any argument that is not a flag, there is nothing to generate from: an error, and nothing is written. -/
theorem C78_no_files (h : Host) {argv : List Str} {ss : List Setting} (d : Disk) (hL : Line argv ss [])
    (h1 : isOn ss .help = false) (h2 : isOn ss .version = false) (h3 : isOn ss .start = false) :
    (main h argv d).exit = .failure ∧ (main h argv d).disk.world = d.world ∧ (main h argv d).disk.files = d.files := by
  obtain ⟨sys, a, b, c, -⟩ := C78_run h d hL h1 h2 h3
  rw [a, b, c]
  unfold command
  rw [if_pos rfl]
  exact ⟨by trivial, by trivial, by trivial⟩

/-- **C78** `-v`, `-d` and `--debug` change nothing in what is written and how the run ends. -/
theorem C78_verbosity (h : Host) {argv argv' : List Str} {ss ss' : List Setting} {fs : List Str} (d : Disk)
    (hL : Line argv ss fs) (hL' : Line argv' ss' fs)
    (o : ∀ n : FlagName, n ≠ .verbose → n ≠ .svcdef → n ≠ .debug → isOn ss n = isOn ss' n)
    (t : ∀ n v, textOf ss n v = textOf ss' n v) : main h argv d = main h argv' d := by
  unfold main
  rw [(parseArgs_iff argv _ fs).2 ⟨ss, hL, rfl⟩, (parseArgs_iff argv' _ fs).2 ⟨ss', hL', rfl⟩]
  have e1 : (meaning ss).help = (meaning ss').help := o .help (by nofun) (by nofun) (by nofun)
  have e2 : (meaning ss).version = (meaning ss').version := o .version (by nofun) (by nofun) (by nofun)
  have e3 : (meaning ss).start = (meaning ss').start := o .start (by nofun) (by nofun) (by nofun)
  have e4 : (meaning ss).client = (meaning ss').client := o .client (by nofun) (by nofun) (by nofun)
  have e5 : (meaning ss).svcOut = (meaning ss').svcOut := t _ _
  have e6 : (meaning ss).transport = (meaning ss').transport := t _ _
  have e7 : runSys h (meaning ss) = runSys h (meaning ss') := by
    unfold runSys
    rw [e4, e5, e6]
  simp only [e1, e2, e3, e5, e7]

/-- **C78** Without any GOPATH, a run that finds a service fails unless `-o` is empty: what protoc wrote is there, and
nothing of the service. -/
theorem C78_no_gopath (h : Host) {argv : List Str} {ss : List Setting} {fs protos : List Str} (d : Disk) (hL : Line argv ss fs)
    (h1 : isOn ss .help = false) (h2 : isOn ss .version = false) (h3 : isOn ss .start = false)
    (hg : goPath h.env h.dflt = []) (ho : textOf ss .svcout "./".toList ≠ [])
    {files : List (Str × Str)} (hf : fs ≠ [])
    (hp : cleanProtofilePath (h.sys (isOn ss .client) (textOf ss .transport "all".toList)).cwd fs = some protos)
    (hl : (h.sys (isOn ss .client) (textOf ss .transport "all".toList)).loadPB = true)
    (hx : generatePBDotGo h protos [] (dir (protos[0]?.getD [])) = some files)
    (hs : ∃ r, fromPaths (runSys h (meaning ss)) protos = .ok r) :
    (main h argv d).exit = .failure ∧ (main h argv d).disk.world = ⟨writeAll d.world.pb files, d.world.svc⟩ ∧
    (main h argv d).disk.files = d.files := by
  unfold main
  rw [(parseArgs_iff argv _ fs).2 ⟨ss, hL, rfl⟩]
  have e1 : (meaning ss).help = isOn ss .help := rfl
  have e2 : (meaning ss).version = isOn ss .version := rfl
  have e3 : (meaning ss).start = isOn ss .start := rfl
  simp only [e1, e2, e3, h1, h2, h3, Bool.false_eq_true, if_false]
  obtain ⟨r, hr⟩ := hs
  have hpr : (runSys h (meaning ss)).protoc protos = some files := by
    show generatePBDotGo h protos (goPath h.env h.dflt) (dir (protos.headD [])) = _
    rw [hg, ← hx]
    cases protos <;> rfl
  have hm : (runSys h (meaning ss)).mkdir = false := by
    show ((h.sys _ _).mkdir && !(goPath h.env h.dflt == [] && (meaning ss).svcOut != [])) = false
    rw [hg, show ((meaning ss).svcOut != []) = true from bne_iff_ne.2 ho]
    simp
  have e : command (runSys h (meaning ss)) (meaning ss).svcOut fs d.world =
      (.failure, ⟨writeAll d.world.pb files, d.world.svc⟩) := by
    unfold command
    rw [if_neg hf, show cleanProtofilePath (runSys h (meaning ss)).cwd fs = some protos from hp]
    simp only [show (runSys h (meaning ss)).loadPB = true from hl, Bool.true_eq_false, if_false, hpr, hr, hm, true_or, if_true]
  rw [e]
  exact ⟨by trivial, by trivial, by trivial⟩

/-- Readings: files and flags mixed, letters together, values in all ways; the later `-o` counts, and after `--` everything
is a file. -/
example : Line (["-vo=x", "a.proto", "--transport", "grpc", "-h=false", "-", "-cout/", "--", "-b.proto"].map String.toList)
      [.switch .verbose true, .text .svcout "x".toList, .text .transport "grpc".toList, .switch .help false,
       .switch .client true, .text .svcout "ut/".toList] (["a.proto", "-", "-b.proto"].map String.toList) ∧
    (parseArgs none {} (["-vo=x", "a.proto", "--transport", "grpc", "-h=false", "-", "-cout/", "--", "-b.proto"].map String.toList)) =
      some ({ svcOut := "ut/".toList, verbose := true, transport := "grpc".toList, client := true },
        ["a.proto", "-", "-b.proto"].map String.toList) := by
  refine ⟨?_, by decide +kernel⟩
  refine .letters (s := "vo=x".toList) (l := [.switch .verbose true, .text .svcout "x".toList])
    (.more (n := .verbose) (c := 'v') (by nofun) rfl (.value (n := .svcout) (c := 'o') rfl (by decide) (.text (.inl rfl)))) ?_
  refine .file (by decide +kernel) ?_
  refine .longNext (n := .transport) (.inr rfl) ?_
  refine .letters (s := "h=false".toList) (l := [.switch .help false])
    (.value (n := .help) (c := 'h') rfl (by decide) (.switch (by nofun) (by show "false".toList ∈ _; decide))) ?_
  refine .file (fun _ => rfl) ?_
  refine .letters (s := "cout/".toList) (l := [.switch .client true, .text .svcout "ut/".toList])
    (.more (n := .client) (c := 'c') (by nofun) rfl (.attached (n := .svcout) (c := 'o') (.inl rfl) rfl (by decide)
      (by decide +kernel) (by decide +kernel))) ?_
  exact .dashes

/-- Not readable: an unknown flag, a missing value, and a switch with a text. -/
example : ([["--protoc"], ["-x"], ["a.proto", "-o"], ["-c=yes"], ["--=a"]].map (fun l => parseArgs none {} (l.map String.toList))).all
    (fun r => r == none) = true := by decide +kernel

/-- A host for the project of the example for C62. -/
def exampleHost (env : Str) : Host where
  env := env
  dflt := []
  found := fun _ => true
  exec := fun _ => (Cli.Example.sys id).protoc Cli.Example.protos
  sys := fun _ _ => Cli.Example.sys id
  start := { stat := fun _ => false, mkdir := true, create := true, write := none }

/-- The hypotheses of `C78_run` and `C78_no_gopath` are met: the same command line succeeds with a GOPATH and fails without
one, where it succeeds with an empty `-o`; `-V` and `-s` do other things. -/
example :
    let d : Disk := ⟨⟨fun _ => none, fun _ => none⟩, fun _ => none⟩
    (main (exampleHost "/go".toList) Cli.Example.args d).exit = .success ∧
    (main (exampleHost []) Cli.Example.args d).exit = .failure ∧
    (main (exampleHost []) ("-o=".toList :: Cli.Example.args) d).exit = .failure ∧
    (main (exampleHost []) ("--svcout=".toList :: Cli.Example.args) d).exit = .success ∧
    (main (exampleHost []) ("-V".toList :: Cli.Example.args) d).exit = .success ∧
    (main (exampleHost []) ["-s".toList, "a".toList] d).exit = .success ∧
    ((main (exampleHost []) ["-s".toList, "a".toList] d).disk.files "a.proto".toList).isSome = true := by
  refine ⟨?_, ?_, ?_, ?_, ?_, ?_, ?_⟩ <;> decide +kernel

example : ∃ r, fromPaths (runSys (exampleHost []) {}) Cli.Example.protos = .ok r := by
  have : (match fromPaths (runSys (exampleHost []) {}) Cli.Example.protos with | .ok _ => true | .error _ => false) = true := by
    decide +kernel
  cases h : fromPaths (runSys (exampleHost []) {}) Cli.Example.protos with
  | ok r => exact ⟨r, rfl⟩
  | error e => rw [h] at this; cases this

end Baron.Main
