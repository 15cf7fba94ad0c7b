import Verif.Spec.Grammar
import Verif.Proofs.ParserFuel

namespace Baron.Parser

open Baron.Lexer Grammar

theorem significant_eq (ts) : significant ts = sig ts := by
  unfold significant sig
  congr 2
  funext g
  unfold ignWS
  cases g.token <;> rfl

theorem adesc_comments (cs : List Str) (d : Str) (l : Sig) :
    adesc d (comments cs ++ l) = adesc (cs.getLast?.getD d) l := by
  induction cs generalizing d with
  | nil => rfl
  | cons c cs ih =>
    simp only [comments, List.map_cons, List.cons_append, adesc, if_true]
    have := ih c
    simp only [comments] at this
    rw [this]
    congr 1
    cases cs <;> simp [List.getLast?_cons]

theorem agetC_comments (cs : List Str) (l : Sig) : agetC (comments cs ++ l) = agetC l := by
  induction cs with
  | nil => rfl
  | cons c cs ih =>
    simp only [comments, List.map_cons, List.cons_append, agetC, if_true] at ih ⊢
    exact ih

theorem aff_skip (s : Toks) (h : SkipOK s) (t : Tok) (ht : t ≠ .eof) (ht' : t ≠ .illegal) (l : Sig) :
    aff "{".toList (s ++ (t, "{".toList) :: l) = .ok l := by
  induction s with
  | nil => simp only [List.nil_append, aff]; rw [if_neg (by simp [ht, ht']), if_pos trivial]
  | cons x xs ih =>
    obtain ⟨a, b⟩ := x
    have := h (a, b) List.mem_cons_self
    simp only [List.cons_append, aff]
    rw [if_neg (by simp [this.1, this.2.1]), if_neg this.2.2]
    exact ih (fun y hy => h y (List.mem_cons_of_mem _ hy))

theorem aff_close (l : Sig) : aff "}".toList ((.closeBrace, "}".toList) :: l) = .ok l := by
  simp only [aff]; rw [if_neg (by simp), if_pos trivial]

/-- Literal inequalities used below. -/
theorem lits : "option".toList ≠ "additional_bindings".toList ∧ "custom".toList ≠ "additional_bindings".toList ∧
    "additional_bindings".toList ≠ "option".toList ∧ "}".toList ≠ "option".toList ∧
    "}".toList ≠ "additional_bindings".toList ∧ "{".toList ≠ ";".toList := by
  decide

/-- One plain field is consumed. -/
theorem aFields_field (unq : Str → Option Str) (n : Nat) (f : AField) (hf : f.WF unq) (d : Str)
    (fs cs : List Field) (l : Sig) :
    aFields unq (n + 1) (f.print ++ l) d fs cs =
      aFields unq n l [] (fs ++ [⟨f.pre.getLast?.getD d, f.kind, f.val⟩]) cs := by
  obtain ⟨h1, h2, h3⟩ := hf
  rw [aFields, AField.print, List.append_assoc, adesc_comments]
  simp only [List.cons_append, List.nil_append, adesc, reduceCtorEq, if_false, false_or, false_and]
  rw [if_neg h2, if_neg h1]
  simp [aget, h3]

/-- Fields up to a closing brace or `additional_bindings`. -/
theorem aFields_fields (unq : Str → Option Str) (flds : List AField) (hf : ∀ f ∈ flds, f.WF unq) (post : List Str)
    (l : Sig) : ∀ (n : Nat) (fs cs : List Field), flds.length < n →
    aFields unq n (flds.flatMap AField.print ++ (comments post ++ (.closeBrace, "}".toList) :: l)) [] fs cs =
      .ok (fs ++ flds.map (fun f => ⟨descOf f.pre, f.kind, f.val⟩), cs, (.closeBrace, "}".toList) :: l) := by
  induction flds with
  | nil =>
    intro n fs cs hn
    match n, hn with
    | n + 1, _ =>
      simp only [List.flatMap_nil, List.nil_append]
      rw [aFields, adesc_comments]
      simp [adesc]
  | cons f flds ih =>
    intro n fs cs hn
    match n, hn with
    | n + 1, hn =>
      simp only [List.flatMap_cons, List.append_assoc]
      rw [aFields_field unq n f (hf f List.mem_cons_self)]
      rw [ih (fun x hx => hf x (List.mem_cons_of_mem _ hx)) n _ cs (by simp at hn; omega)]
      simp [descOf]

theorem getLast?_append_getD (a b : List Str) (d : Str) :
    (a ++ b).getLast?.getD d = b.getLast?.getD (a.getLast?.getD d) := by
  rw [List.getLast?_append]
  cases b.getLast? <;> simp

/-- An upper bound on the loop iterations needed for the items. -/
def itemsFuel (items : List AItem) : Nat :=
  (items.map fun i => match i with
    | .field _ => 1
    | .custom _ _ fs _ => fs.length + 2).sum

/-- Items up to a terminator `(t, v)`: a closing brace or `additional_bindings`. -/
theorem aFields_items (unq : Str → Option Str) (items : List AItem) (hi : ∀ i ∈ items, i.WF unq) (post : List Str)
    (t : Tok) (v : Str) (l : Sig)
    (hterm : (t = .closeBrace ∧ v = "}".toList) ∨ (t = .ident ∧ v = "additional_bindings".toList)) :
    ∀ (n : Nat) (pend : List Str) (fs cs : List Field), itemsFuel items < n →
    aFields unq n (items.flatMap AItem.print ++ (comments post ++ (t, v) :: l)) (descOf pend) fs cs =
      .ok (fs ++ fieldsOf pend items,
        items.foldl (fun acc i => match i with
          | .custom _ _ fs _ => fs.map fun f => ⟨descOf f.pre, f.kind, f.val⟩
          | .field _ => acc) cs,
        (t, v) :: l) := by
  induction items with
  | nil =>
    intro n pend fs cs hn
    match n, hn with
    | n + 1, _ =>
      simp only [List.flatMap_nil, List.nil_append]
      rw [aFields, adesc_comments]
      rcases hterm with ⟨rfl, rfl⟩ | ⟨rfl, rfl⟩
      · simp [adesc, fieldsOf]
      · simp [adesc, fieldsOf]
  | cons i items ih =>
    intro n pend fs cs hn
    have ih := ih (fun x hx => hi x (List.mem_cons_of_mem _ hx))
    have hwf := hi i List.mem_cons_self
    match n, hn with
    | n + 1, hn =>
      cases i with
      | field f =>
        simp only [List.flatMap_cons, List.append_assoc, AItem.print]
        rw [aFields_field unq n f hwf]
        have := ih n [] (fs ++ [⟨f.pre.getLast?.getD (descOf pend), f.kind, f.val⟩]) cs
          (by simp [itemsFuel] at hn ⊢; omega)
        simp only [show descOf [] = [] from rfl] at this
        rw [this]
        simp only [fieldsOf, List.foldl_cons, List.append_assoc, List.singleton_append, descOf,
          getLast?_append_getD]
      | custom pre skip flds post' =>
        obtain ⟨hs, hf⟩ := hwf
        simp only [List.flatMap_cons, List.append_assoc, AItem.print]
        rw [aFields, adesc_comments]
        simp only [kw, List.cons_append, List.nil_append, adesc, reduceCtorEq, if_false, or_self, false_and]
        rw [if_neg lits.2.1, if_pos trivial]
        rw [aff_skip skip hs .openBrace (by simp) (by simp)]
        simp only
        rw [aFields_fields unq flds hf post' _ n [] [] (by simp [itemsFuel] at hn; omega)]
        simp only
        rw [aff_close]
        simp only
        have := ih n (pend ++ pre) fs (flds.map fun f => ⟨descOf f.pre, f.kind, f.val⟩)
          (by simp [itemsFuel] at hn ⊢; omega)
        simp only [descOf, getLast?_append_getD] at this ⊢
        simp only [List.nil_append]
        rw [this]
        simp only [fieldsOf, List.foldl_cons]

theorem print_field_length (f : AField) : f.print.length = f.pre.length + 3 := by
  simp [AField.print, comments]

theorem items_length (items : List AItem) : itemsFuel items ≤ (items.flatMap AItem.print).length := by
  induction items with
  | nil => simp [itemsFuel]
  | cons i items ih =>
    have hi : (match i with | .field _ => 1 | .custom _ _ fs _ => fs.length + 2) ≤ i.print.length := by
      cases i with
      | field f => simp [AItem.print, print_field_length]
      | custom pre skip flds post =>
        have : flds.length ≤ (flds.flatMap AField.print).length := by
          induction flds with
          | nil => exact Nat.le_refl _
          | cons f flds ihf =>
            rw [List.flatMap_cons, List.length_append, print_field_length, List.length_cons]
            have := ihf
            omega
        simp only [AItem.print, List.length_append, List.length_cons, List.length_nil]; omega
    simp only [itemsFuel, List.map_cons, List.sum_cons, List.flatMap_cons, List.length_append] at ih ⊢
    omega

/-- A binding body up to its terminator. -/
theorem aFields_body (unq : Str → Option Str) (b : ABody) (hb : b.WF unq) (t : Tok) (v : Str) (l : Sig)
    (hterm : (t = .closeBrace ∧ v = "}".toList) ∨ (t = .ident ∧ v = "additional_bindings".toList))
    (n : Nat) (hn : (b.print ++ (t, v) :: l).length < n) :
    aFields unq n (b.print ++ (t, v) :: l) [] [] [] =
      .ok (fieldsOf [] b.items, customOf b.items, (t, v) :: l) := by
  have := aFields_items unq b.items hb b.post t v l hterm n [] [] [] (by
    have := items_length b.items
    simp only [ABody.print, List.length_append, List.length_cons] at hn; omega)
  simp only [show descOf [] = [] from rfl, List.nil_append] at this
  rw [ABody.print, List.append_assoc, this]
  rfl

/-- One `additional_bindings` block, as read by `ParseHttpBindings`. -/
theorem aHttp_add (unq : Str → Option Str) (a : AAdd) (ha : a.WF unq) (hpre : a.pre = []) (l : Sig) (n : Nat)
    (hn : (a.print ++ l).length ≤ n) :
    aHttp unq n (a.print ++ l) = .ok (some [a.body.meaning []], l) := by
  obtain ⟨hs, hb⟩ := ha
  have hlen : a.print.length = a.skip.length + a.body.print.length + 3 := by
    simp [AAdd.print, hpre, comments]; omega
  match n, hn with
  | 0, hn => simp [hlen] at hn
  | n + 1, hn =>
    rw [aHttp]
    simp only [AAdd.print, hpre, comments, List.map_nil, List.nil_append, kw, List.append_assoc, List.cons_append,
      adesc, reduceCtorEq, if_false, or_self]
    rw [if_neg lits.2.2.1, if_pos trivial, aff_skip a.skip hs .openBrace (by simp) (by simp)]
    simp only
    rw [aFields_body unq a.body hb .closeBrace "}".toList l (.inl ⟨rfl, rfl⟩) n (by
      simp [hlen] at hn ⊢; omega)]
    simp only
    rw [aff_close]
    rfl

/-- Comments before a token in the option loop are skipped. -/
theorem aOption_comments (unq : Str → Option Str) (cs : List Str) (l : Sig) (rv : List HTTPBinding)
    (opt : HTTPBinding) (n : Nat) (hn : (comments cs ++ l).length < n) :
    ∃ m, l.length < m ∧ aOption unq n (comments cs ++ l) rv opt = aOption unq m l rv opt := by
  induction cs generalizing n with
  | nil => exact ⟨n, hn, rfl⟩
  | cons c cs ih =>
    match n, hn with
    | n + 1, hn =>
      obtain ⟨m, h1, h2⟩ := ih n (by simp [comments] at hn ⊢; omega)
      refine ⟨m, h1, ?_⟩
      rw [← h2, aOption]
      simp only [comments, List.map_cons, List.cons_append, aget, reduceCtorEq, if_false, if_true]

/-- The option loop over additional bindings up to the closing brace. -/
theorem aOption_adds (unq : Str → Option Str) (adds : List AAdd) (ha : ∀ a ∈ adds, a.WF unq) (post : List Str)
    (l : Sig) : ∀ (n : Nat) (rv : List HTTPBinding) (opt : HTTPBinding),
    (adds.flatMap AAdd.print ++ (comments post ++ (.closeBrace, "}".toList) :: l)).length < n →
    aOption unq n (adds.flatMap AAdd.print ++ (comments post ++ (.closeBrace, "}".toList) :: l)) rv opt =
      .ok (some (rv ++ adds.map (fun a => a.body.meaning []) ++ [opt]), l) := by
  induction adds with
  | nil =>
    intro n rv opt hn
    simp only [List.flatMap_nil, List.nil_append] at hn ⊢
    obtain ⟨m, h1, h2⟩ := aOption_comments unq post ((.closeBrace, "}".toList) :: l) rv opt n hn
    rw [h2]
    match m, h1 with
    | m + 1, _ => simp [aOption, aget]
  | cons a adds ih =>
    intro n rv opt hn
    have hwf := ha a List.mem_cons_self
    let a' : AAdd := { a with pre := [] }
    have hpr : a.print = comments a.pre ++ a'.print := by simp [AAdd.print, a', comments]
    simp only [List.flatMap_cons, List.append_assoc] at hn ⊢
    rw [hpr, List.append_assoc] at hn ⊢
    obtain ⟨m, h1, h2⟩ := aOption_comments unq a.pre _ rv opt n hn
    rw [h2]
    match m, h1 with
    | m + 1, h1 =>
      rw [aOption]
      have hget : ∀ l, aget (a'.print ++ l) = (.ident, "additional_bindings".toList,
          (a.skip ++ [(.openBrace, "{".toList)] ++ a.body.print ++ [(.closeBrace, "}".toList)]) ++ l) := by
        intro l
        simp [AAdd.print, a', comments, kw, aget]
      rw [hget]
      simp only [reduceCtorEq, if_false, if_true]
      rw [aHttp_add unq a' hwf rfl _ m (by omega)]
      simp only
      rw [ih (fun x hx => ha x (List.mem_cons_of_mem _ hx)) m _ opt (by
        have : a'.print.length ≥ 1 := by simp [AAdd.print]; omega
        simp at h1 ⊢; omega)]
      simp [a']

/-- The whole option block of an rpc. -/
theorem aHttp_opt (unq : Str → Option Str) (o : AOpt) (ho : o.WF unq) (l : Sig) (n : Nat)
    (hn : (o.print ++ l).length ≤ n) :
    aHttp unq n (o.print ++ l) = .ok (some o.meaning,
      comments o.preSemi ++ (.symbol, ";".toList) :: (comments o.preEnd ++ (.closeBrace, "}".toList) :: l)) := by
  obtain ⟨hs, hb, ha⟩ := ho
  have hlen : o.print.length = o.pre.length + o.skip.length + o.body.print.length +
      (o.adds.flatMap AAdd.print).length + o.post.length + o.preSemi.length + o.preEnd.length + 5 := by
    simp [AOpt.print, comments]; omega
  match n, hn with
  | 0, hn => simp [hlen] at hn
  | n + 1, hn =>
    rw [aHttp]
    simp only [AOpt.print, List.append_assoc]
    rw [adesc_comments]
    simp only [kw, List.cons_append, List.nil_append, adesc, reduceCtorEq, if_false, or_self, if_true]
    rw [aff_skip o.skip hs .openBrace (by simp) (by simp)]
    simp only
    -- the body ends at the first additional binding or at the closing brace
    cases hadds : o.adds with
    | nil =>
      have hbody := aFields_body unq { o.body with post := o.body.post ++ o.post } hb .closeBrace "}".toList
        (comments o.preSemi ++ (.symbol, ";".toList) :: (comments o.preEnd ++ (.closeBrace, "}".toList) :: l))
        (.inl ⟨rfl, rfl⟩) n (by
          simp [ABody.print, comments] at hn hlen ⊢; omega)
      have he : (ABody.print { o.body with post := o.body.post ++ o.post }) = o.body.print ++ comments o.post := by
        simp [ABody.print, comments]
      rw [he, List.append_assoc] at hbody
      simp only [List.flatMap_nil, List.nil_append]
      rw [hbody]
      simp only
      match n, hn with
      | 0, hn => rw [List.length_append, hlen] at hn; omega
      | n + 1, hn => simp [aOption, aget, AOpt.meaning, hadds, ABody.meaning, descOf]
    | cons a adds =>
      let a' : AAdd := { a with pre := [] }
      have hpr : a.print = comments a.pre ++ a'.print := by simp [AAdd.print, a', comments]
      let rest : Sig := adds.flatMap AAdd.print ++ (comments o.post ++ (.closeBrace, "}".toList) ::
        (comments o.preSemi ++ (.symbol, ";".toList) :: (comments o.preEnd ++ (.closeBrace, "}".toList) :: l)))
      obtain ⟨atail, hat⟩ : ∃ atail, a'.print = (.ident, "additional_bindings".toList) :: atail := by
        exact ⟨a.skip ++ ([(.openBrace, "{".toList)] ++ (a.body.print ++ [(.closeBrace, "}".toList)])), by
          simp only [AAdd.print, a', comments, List.map_nil, List.nil_append, kw, List.append_assoc,
            List.cons_append]⟩
      have hlen' : a.print.length = a.pre.length + (atail.length + 1) := by
        rw [hpr, hat]; simp [comments]
      rw [hadds] at hlen
      have hbody := aFields_body unq { o.body with post := o.body.post ++ a.pre } hb .ident
        "additional_bindings".toList (atail ++ rest) (.inr ⟨rfl, rfl⟩) n (by
          simp [ABody.print, comments, rest] at hn hlen ⊢; omega)
      have he : (ABody.print { o.body with post := o.body.post ++ a.pre }) = o.body.print ++ comments a.pre := by
        simp [ABody.print, comments]
      rw [he, List.append_assoc, ← List.cons_append, ← hat] at hbody
      have hgoal : o.body.print ++ ((a :: adds).flatMap AAdd.print ++ (comments o.post ++ (.closeBrace, "}".toList) ::
          (comments o.preSemi ++ (.symbol, ";".toList) :: (comments o.preEnd ++ (.closeBrace, "}".toList) :: l)))) =
          o.body.print ++ (comments a.pre ++ (a'.print ++ rest)) := by
        simp only [List.flatMap_cons, hpr, List.append_assoc, rest]
      rw [hgoal, hbody]
      simp only
      have hopt := aOption_adds unq (a' :: adds) (by
          intro x hx
          rcases List.mem_cons.mp hx with rfl | hx
          · exact ha a (by rw [hadds]; simp)
          · exact ha x (by rw [hadds]; simp [hx])) o.post
        (comments o.preSemi ++ (.symbol, ";".toList) :: (comments o.preEnd ++ (.closeBrace, "}".toList) :: l))
        n [] ⟨o.pre.getLast?.getD [], fieldsOf [] o.body.items, customOf o.body.items⟩ (by
          simp [hat, comments] at hn hlen ⊢; omega)
      simp only [List.flatMap_cons, List.append_assoc] at hopt
      rw [hopt]
      simp [AOpt.meaning, hadds, a', ABody.meaning, descOf]

/-! ### Types -/

theorem aTypeLoop_path (site : Site) (name : Str) (l : Sig) : ∀ (pkg : List Str) (n : Nat) (acc : Str),
    (pkg.flatMap (fun p => [(Tok.ident, p), (Tok.symbol, ".".toList)]) ++
      [(Tok.ident, name), (Tok.closeParen, ")".toList)] ++ l).length + 1 ≤ n →
    ∀ tk val r, (pkg.flatMap (fun p => [(Tok.ident, p), (Tok.symbol, ".".toList)]) ++
      [(Tok.ident, name), (Tok.closeParen, ")".toList)] ++ l) = (tk, val) :: r →
    aTypeLoop site n tk val r acc = .ok (name, l) := by
  intro pkg
  induction pkg with
  | nil =>
    intro n acc hn tk val r h
    simp only [List.flatMap_nil, List.nil_append, List.cons_append, List.cons.injEq, Prod.mk.injEq] at h
    obtain ⟨⟨rfl, rfl⟩, rfl⟩ := h
    match n, hn with
    | n + 2, _ => simp [aTypeLoop, aget]
    | 0, hn => simp at hn
    | 1, hn => simp at hn
  | cons p pkg ih =>
    intro n acc hn tk val r h
    simp only [List.flatMap_cons, List.append_assoc, List.cons_append, List.nil_append, List.cons.injEq,
      Prod.mk.injEq] at h
    obtain ⟨⟨rfl, rfl⟩, rfl⟩ := h
    match n, hn with
    | 0, hn => simp at hn
    | 1, hn => simp at hn
    | n + 2, hn =>
      rw [aTypeLoop]
      simp only [reduceCtorEq, if_false, aget]
      rw [aTypeLoop]
      simp only [reduceCtorEq, if_false, if_true]
      generalize hr : (pkg.flatMap (fun p => [(Tok.ident, p), (Tok.symbol, ".".toList)]) ++
        ((.ident, name) :: (.closeParen, ")".toList) :: l)) = r'
      match r', hr with
      | [], hr => simp at hr
      | (tk', val') :: r'', hr =>
        simp only [aget]
        refine ih n p ?_ tk' val' r'' (by rw [← hr]; simp)
        simp at hn ⊢
        omega

theorem aType_print (s1 s2 s3 : Site) (t : AType) (ht : t.WF) (l : Sig) (n : Nat)
    (hn : (t.print ++ l).length + 1 ≤ n) : aType s1 s2 s3 n (t.print ++ l) = .ok (t.name, l) := by
  have hloop := aTypeLoop_path s3 t.name l t.pkg n []
  generalize hr : (t.pkg.flatMap (fun p => [(Tok.ident, p), (Tok.symbol, ".".toList)]) ++
      [(.ident, t.name), (.closeParen, ")".toList)] ++ l) = r at hloop
  have hp : t.print ++ l = (.openParen, "(".toList) :: ((if t.stream then [kw "stream"] else []) ++ r) := by
    rw [← hr]; simp [AType.print]
  rw [hp] at hn ⊢
  have hhead : ∃ v r', r = (.ident, v) :: r' ∧ (t.pkg ++ [t.name]).head? = some v := by
    rw [← hr]
    cases t.pkg with
    | nil => exact ⟨_, _, rfl, rfl⟩
    | cons p ps => exact ⟨_, _, rfl, rfl⟩
  obtain ⟨v, r', rfl, hv⟩ := hhead
  rw [aType]
  simp only [aget, ne_eq, not_true_eq_false, if_false]
  cases hst : t.stream with
  | true =>
    simp only [hst, if_true, kw, List.cons_append, List.nil_append, aget, ne_eq, not_true_eq_false, if_false]
    exact hloop (by simp [hst] at hn ⊢; omega) _ _ _ rfl
  | false =>
    have : v ≠ "stream".toList := by
      intro e
      have := ht hst
      rw [hv, e] at this
      exact this rfl
    simp only [hst, Bool.false_eq_true, if_false, List.nil_append, aget, this]
    simp only [ne_eq, not_true_eq_false, if_false]
    exact hloop (by simp [hst] at hn ⊢; omega) _ _ _ rfl

/-! ### Rpcs and the service -/

def tailMeaning (m : Method) : ATail → Option Method
  | .http o => some { m with bindings := o.meaning }
  | _ => none

theorem aTail_print (unq : Str → Option Str) (t : ATail) (ht : t.WF unq) (l : Sig) (n : Nat) (m : Method)
    (hn : (t.print ++ l).length + 2 ≤ n) :
    aTail unq n (t.print ++ l) m = .ok (tailMeaning m t, l) := by
  cases t with
  | semi => simp [ATail.print, aTail, aget, tailMeaning]
  | empty pre =>
    simp only [ATail.print, List.append_assoc, List.cons_append, List.nil_append] at hn ⊢
    rw [aTail]
    simp only [aget]
    rw [if_neg lits.2.2.2.2.2]
    simp only [ne_eq, not_true_eq_false, if_false]
    match n, hn with
    | n + 1, _ =>
      rw [aHttp, adesc_comments]
      simp only [adesc, reduceCtorEq, if_false, or_self]
      rw [if_neg lits.2.2.2.1, if_neg lits.2.2.2.2.1, if_pos trivial]
      simp [tailMeaning]
  | http o =>
    simp only [ATail.print, List.append_assoc, List.cons_append, List.nil_append] at hn ⊢
    rw [aTail]
    simp only [aget]
    rw [if_neg lits.2.2.2.2.2]
    simp only [ne_eq, not_true_eq_false, if_false]
    rw [aHttp_opt unq o ht l n (by simp at hn ⊢; omega)]
    simp only
    rw [agetC_comments]
    simp only [agetC, reduceCtorEq, if_false, ne_eq, not_true_eq_false, or_self]
    rw [agetC_comments]
    simp [agetC, tailMeaning]

theorem aMethod_print (unq : Str → Option Str) (r : ARpc) (hr : r.WF unq) (l : Sig) (n : Nat)
    (hn : (r.print ++ l).length + 2 ≤ n) :
    aMethod unq n (r.print ++ l) = .ok (r.meaning, l) := by
  obtain ⟨h1, h2, h3⟩ := hr
  have hlen : r.print.length = r.pre.length + 3 + r.req.print.length + r.resp.print.length + r.tail.print.length := by
    simp [ARpc.print, comments]; omega
  rw [aMethod]
  simp only [ARpc.print, List.append_assoc]
  rw [adesc_comments]
  simp only [kw, List.cons_append, List.nil_append, adesc, reduceCtorEq, if_false, ne_eq, not_true_eq_false, or_self,
    aget]
  rw [aType_print _ _ _ r.req h1 _ n (by simp [hlen] at hn ⊢; omega)]
  simp only [aget, ne_eq, not_true_eq_false, or_self, if_false]
  rw [aType_print _ _ _ r.resp h2 _ n (by simp [hlen] at hn ⊢; omega)]
  simp only
  rw [aTail_print unq r.tail h3 l n _ (by simp [hlen] at hn ⊢; omega)]
  unfold ARpc.meaning
  cases r.tail <;> simp [descOf, tailMeaning]

theorem aMethods_print (unq : Str → Option Str) (post : List Str) (l : Sig) (fuel : Nat) :
    ∀ (rpcs : List ARpc), (∀ r ∈ rpcs, r.WF unq) → ∀ (n : Nat) (ms : List Method),
    (rpcs.flatMap ARpc.print ++ (comments post ++ (.closeBrace, "}".toList) :: l)).length + 2 ≤ fuel →
    rpcs.length < n →
    aMethods unq fuel n (rpcs.flatMap ARpc.print ++ (comments post ++ (.closeBrace, "}".toList) :: l)) ms =
      .ok (ms ++ rpcs.filterMap ARpc.meaning) := by
  intro rpcs
  induction rpcs with
  | nil =>
    intro _ n ms _ hn
    match n, hn with
    | n + 1, _ =>
      rw [aMethods]
      simp only [List.flatMap_nil, List.nil_append]
      have : aMethod unq fuel (comments post ++ (.closeBrace, "}".toList) :: l) = .error .svcDefEnd := by
        rw [aMethod, adesc_comments]
        simp [adesc]
      rw [this]
      simp
  | cons r rpcs ih =>
    intro hwf n ms hf hn
    match n, hn with
    | n + 1, hn =>
      rw [aMethods]
      simp only [List.flatMap_cons, List.append_assoc] at hf ⊢
      rw [aMethod_print unq r (hwf r List.mem_cons_self) _ fuel hf]
      have hih := ih (fun x hx => hwf x (List.mem_cons_of_mem _ hx)) n
      cases hm : r.meaning with
      | none =>
        simp only [List.filterMap_cons, hm]
        exact hih ms (by simp at hf ⊢; omega) (by simp at hn; omega)
      | some m =>
        simp only [List.filterMap_cons, hm]
        rw [hih (ms ++ [m]) (by simp at hf ⊢; omega) (by simp at hn; omega)]
        simp

theorem aService_print (unq : Str → Option Str) (s : ASvc) (hs : s.WF unq) (l : Sig) (n : Nat)
    (hn : (s.print ++ l).length + 2 ≤ n) : aService unq n (s.print ++ l) = .ok s.meaning := by
  have hr : s.rpcs.length ≤ (s.rpcs.flatMap ARpc.print).length := by
    induction s.rpcs with
    | nil => simp
    | cons r rs ih => simp [ARpc.print] at ih ⊢; omega
  have hlen : s.print.length = (s.rpcs.flatMap ARpc.print).length + s.post.length + 4 := by
    simp [ASvc.print, comments]; omega
  rw [aService]
  simp only [ASvc.print, List.append_assoc, List.cons_append, List.nil_append, kw, aget, reduceCtorEq, if_false,
    ne_eq, not_true_eq_false, false_and]
  rw [aMethods_print unq s.post l n s.rpcs hs n [] (by rw [List.length_append, hlen] at hn; simp only [List.length_append, List.length_cons, comments, List.length_map]; omega)
    (by rw [List.length_append, hlen] at hn; omega)]
  rfl

end Baron.Parser
