import Verif.Spec.Lexer
import Verif.Model.Parser

/-!
# The zipper cursor of the parser model is the position-based lexer cursor
-/

namespace Baron.Parser

open Baron.Lexer

/-- The position-based lexer a zipper stands for. -/
def Cur.toLex (c : Cur) : Lex := ⟨c.prev.reverse ++ c.rest, c.prev.length, c.line⟩

theorem toLex_new (ts) : (Cur.new ts).toLex = Lex.new ts := by simp [Cur.new, Cur.toLex, Lex.new]

theorem getToken_cons (p r g l) : (Cur.toLex ⟨p, g :: r, l⟩).getToken =
    (g.token, g.value, Cur.toLex ⟨g :: p, r, g.line⟩) := by
  have h : (Cur.toLex ⟨p, g :: r, l⟩).buf[(Cur.toLex ⟨p, g :: r, l⟩).pos]? = some g := by
    simp [Cur.toLex]
  unfold Lex.getToken
  rw [h]
  simp [Cur.toLex]

theorem getToken_nil (p l) : (Cur.toLex ⟨p, [], l⟩).getToken = (.eof, [], Cur.toLex ⟨p, [], l⟩) := by
  have h : (Cur.toLex ⟨p, [], l⟩).buf[(Cur.toLex ⟨p, [], l⟩).pos]? = none := by simp [Cur.toLex]
  unfold Lex.getToken
  rw [h]

theorem getSkip_toLex (ign : Tok → Bool) (he : ign .eof = false) (n : Nat) (r p l) (h : r.length < n) :
    (Cur.toLex ⟨p, r, l⟩).getSkip ign n =
      ((skipGo ign p l r).1, (skipGo ign p l r).2.1, (skipGo ign p l r).2.2.toLex) := by
  induction n generalizing r p l with
  | zero => omega
  | succ n ih =>
    unfold Lex.getSkip
    match r with
    | [] => rw [getToken_nil]; simp [skipGo, he]
    | g :: r =>
      rw [getToken_cons]
      unfold skipGo
      by_cases hg : ign g.token = true
      · simp only [hg, if_true]; exact ih _ _ _ (by simp at h; omega)
      · simp [hg]

theorem getWS_toLex (c : Cur) : c.toLex.getWS = (c.getWS.1, c.getWS.2.1, c.getWS.2.2.toLex) :=
  getSkip_toLex ignWS rfl _ _ _ _ (by simp [Cur.toLex]; omega)

theorem getWSC_toLex (c : Cur) : c.toLex.getWSC = (c.getWSC.1, c.getWSC.2.1, c.getWSC.2.2.toLex) :=
  getSkip_toLex ignWSC rfl _ _ _ _ (by simp [Cur.toLex]; omega)

theorem unGet_toLex (c : Cur) : (c.toLex.unGet).getD c.toLex = c.unGet.toLex := by
  obtain ⟨p, r, l⟩ := c
  match p with
  | [] => simp [Cur.toLex, Lex.unGet, Cur.unGet]
  | g :: p => simp [Cur.toLex, Lex.unGet, Cur.unGet]

theorem unGetTo_toLex (c : Cur) (t : Nat) (h : t ≤ c.pos) :
    c.toLex.unGetTo t c.toLex.pos = some (c.unGetTo t).toLex := by
  obtain ⟨p, r, l⟩ := c
  simp only [Cur.pos] at h
  show Lex.unGetTo t p.length _ = _
  unfold Cur.unGetTo
  simp only
  induction p generalizing r l with
  | nil =>
    have : t = 0 := by simpa using h
    subst this
    simp [Lex.unGetTo, unGetToGo, Cur.toLex]
  | cons g p ih =>
    unfold unGetToGo
    simp only [List.length_cons]
    unfold Lex.unGetTo
    by_cases ht : p.length + 1 = t
    · simp [Cur.toLex, ht]
    · have hu : (Cur.toLex ⟨g :: p, r, l⟩).unGet = some (Cur.toLex ⟨p, g :: r, g.line⟩) := by
        simp [Cur.toLex, Lex.unGet]
      rw [if_neg (by simp [Cur.toLex, ht]), if_neg ht, hu]
      exact ih (g :: r) g.line (by simp at h; omega)

end Baron.Parser
