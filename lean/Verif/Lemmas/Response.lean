import Verif.Lemmas.Http
import Verif.Lemmas.Strings3
/-
The specification of HTTP responses is unambiguous: the bytes determine status, fields and body.
-/
namespace Wayuu.Spec

theorem first_crlf {a b x y : List Byte} (ha : ∀ c ∈ a, c ≠ 13) (hb : ∀ c ∈ b, c ≠ 13)
    (h : a ++ 13 :: x = b ++ 13 :: y) : a = b ∧ x = y := by
  induction a generalizing b with
  | nil =>
    cases b with
    | nil => simpa using h
    | cons c b =>
      simp only [List.nil_append, List.cons_append, List.cons.injEq] at h
      exact absurd h.1.symm (hb c (by simp))
  | cons c a ih =>
    cases b with
    | nil =>
      simp only [List.nil_append, List.cons_append, List.cons.injEq] at h
      exact absurd h.1 (ha c (by simp))
    | cons d b =>
      simp only [List.cons_append, List.cons.injEq] at h
      obtain ⟨rfl, h⟩ := h
      obtain ⟨rfl, rfl⟩ := ih (fun c hc => ha c (by simp [hc])) (fun c hc => hb c (by simp [hc])) h
      exact ⟨rfl, rfl⟩

theorem first_byte {p : Byte} {a b x y : List Byte} (ha : p ∉ a) (hb : p ∉ b)
    (h : a ++ p :: x = b ++ p :: y) : a = b ∧ x = y := by
  induction a generalizing b with
  | nil =>
    cases b with
    | nil => simpa using h
    | cons c b =>
      simp only [List.nil_append, List.cons_append, List.cons.injEq] at h
      exact absurd (by simp [h.1]) hb
  | cons c a ih =>
    cases b with
    | nil =>
      simp only [List.nil_append, List.cons_append, List.cons.injEq] at h
      exact absurd (by simp [h.1]) ha
    | cons d b =>
      simp only [List.cons_append, List.cons.injEq] at h
      obtain ⟨rfl, h⟩ := h
      obtain ⟨rfl, rfl⟩ := ih (fun hc => ha (by simp [hc])) (fun hc => hb (by simp [hc])) h
      exact ⟨rfl, rfl⟩

theorem alnum_plain {c : Byte} (h : alnum c = true) : c ≠ 13 ∧ c ≠ 10 ∧ c ≠ 58 := by
  refine ⟨?_, ?_, ?_⟩ <;> (rintro rfl; revert h; decide)

theorem nameByte_plain {c : Byte} (h : nameByte c) : c ≠ 13 ∧ c ≠ 10 ∧ c ≠ 58 := by
  rcases h with h | rfl | rfl
  · exact alnum_plain h
  · decide
  · decide

theorem Field.oneLine {l n v : List Byte} (h : Field l n v) : OneLine l := by
  obtain ⟨ows, rfl, -, h2, h3, h4, -⟩ := h
  intro c hc
  simp only [List.mem_append, List.mem_cons] at hc
  rcases hc with hc | rfl | hc | hc
  · exact ⟨(nameByte_plain (h2 c hc)).1, (nameByte_plain (h2 c hc)).2.1⟩
  · decide
  · rcases h3 c hc with rfl | rfl <;> decide
  · exact h4 c hc

theorem Field.ne_nil {l n v : List Byte} (h : Field l n v) : l ≠ [] := by
  obtain ⟨ows, rfl, -⟩ := h
  simp

theorem Field.has_colon {l n v : List Byte} (h : Field l n v) : (58 : Byte) ∈ l := by
  obtain ⟨ows, rfl, -⟩ := h
  simp

theorem ows_unique {o o' v v' : List Byte} (h : ∀ c ∈ o, c = 32 ∨ c = 9) (h' : ∀ c ∈ o', c = 32 ∨ c = 9)
    (hv : ∀ c, v.head? = some c → c ≠ 32 ∧ c ≠ 9) (hv' : ∀ c, v'.head? = some c → c ≠ 32 ∧ c ≠ 9)
    (e : o ++ v = o' ++ v') : v = v' := by
  induction o generalizing o' with
  | nil =>
    cases o' with
    | nil => simpa using e
    | cons d o' =>
      have e' : v = d :: (o' ++ v') := by simpa using e
      have h1 := hv d (by rw [e']; rfl)
      rcases h' d (by simp) with h2 | h2
      · exact absurd h2 h1.1
      · exact absurd h2 h1.2
  | cons c o ih =>
    cases o' with
    | nil =>
      have e' : v' = c :: (o ++ v) := by simpa using e.symm
      have h1 := hv' c (by rw [e']; rfl)
      rcases h c (by simp) with h2 | h2
      · exact absurd h2 h1.1
      · exact absurd h2 h1.2
    | cons d o' =>
      simp only [List.cons_append, List.cons.injEq] at e
      exact ih (fun c hc => h c (by simp [hc])) (fun c hc => h' c (by simp [hc])) e.2

/-- A field line determines its name and value. -/
theorem Field.unique {l n v n' v' : List Byte} (h : Field l n v) (h' : Field l n' v') : n = n' ∧ v = v' := by
  obtain ⟨o, rfl, -, h2, h3, -, h5⟩ := h
  obtain ⟨o', e, -, h2', h3', -, h5'⟩ := h'
  obtain ⟨rfl, e1⟩ := first_byte (fun hc => (nameByte_plain (h2 _ hc)).2.2 rfl)
    (fun hc => (nameByte_plain (h2' _ hc)).2.2 rfl) e
  exact ⟨rfl, ows_unique h3 h3' h5 h5' e1⟩

theorem lines_unique {lines lines' : List (List Byte)} {body body' : List Byte}
    (h : ∀ l ∈ lines, OneLine l ∧ l ≠ []) (h' : ∀ l ∈ lines', OneLine l ∧ l ≠ [])
    (e : lines.flatMap (fun l => l ++ [13, 10]) ++ 13 :: 10 :: body =
      lines'.flatMap (fun l => l ++ [13, 10]) ++ 13 :: 10 :: body') : lines = lines' ∧ body = body' := by
  induction lines generalizing lines' with
  | nil =>
    cases lines' with
    | nil => simpa using e
    | cons l' ls' =>
      obtain ⟨h1, h2⟩ := h' l' (by simp)
      have e : [] ++ 13 :: 10 :: body = l' ++ 13 :: (10 :: (ls'.flatMap (fun l => l ++ [13, 10]) ++ 13 :: 10 :: body')) := by
        simpa using e
      have := first_crlf (by simp) (fun c hc => (h1 c hc).1) e
      exact absurd this.1.symm h2
  | cons l ls ih =>
    obtain ⟨h1, h2⟩ := h l (by simp)
    cases lines' with
    | nil =>
      have e : l ++ 13 :: (10 :: (ls.flatMap (fun l => l ++ [13, 10]) ++ 13 :: 10 :: body)) = [] ++ 13 :: 10 :: body' := by
        simpa using e
      have := first_crlf (fun c hc => (h1 c hc).1) (by simp) e
      exact absurd this.1 h2
    | cons l' ls' =>
      obtain ⟨h1', -⟩ := h' l' (by simp)
      have e : l ++ 13 :: (10 :: (ls.flatMap (fun l => l ++ [13, 10]) ++ 13 :: 10 :: body)) =
          l' ++ 13 :: (10 :: (ls'.flatMap (fun l => l ++ [13, 10]) ++ 13 :: 10 :: body')) := by
        simpa using e
      obtain ⟨rfl, e1⟩ := first_crlf (fun c hc => (h1 c hc).1) (fun c hc => (h1' c hc).1) e
      simp only [List.cons.injEq, true_and] at e1
      obtain ⟨rfl, rfl⟩ := ih (fun x hx => h x (by simp [hx])) (fun x hx => h' x (by simp [hx])) e1
      exact ⟨rfl, rfl⟩

theorem fields_lines {lines : List (List Byte)} {fields : List (List Byte × List Byte)}
    (h : List.Forall₂ (fun l (f : List Byte × List Byte) => Field l f.1 f.2) lines fields) :
    ∀ l ∈ lines, OneLine l ∧ l ≠ [] := by
  induction h with
  | nil => simp
  | cons hx _ ih =>
    intro l hl
    rcases List.mem_cons.mp hl with rfl | hl
    · exact ⟨hx.oneLine, hx.ne_nil⟩
    · exact ih l hl

theorem fields_unique {lines : List (List Byte)} {fields fields' : List (List Byte × List Byte)}
    (h : List.Forall₂ (fun l (f : List Byte × List Byte) => Field l f.1 f.2) lines fields)
    (h' : List.Forall₂ (fun l (f : List Byte × List Byte) => Field l f.1 f.2) lines fields') : fields = fields' := by
  induction h generalizing fields' with
  | nil => cases h'; rfl
  | cons hx _ ih =>
    cases h' with
    | cons hx' ht' =>
      obtain ⟨h1, h2⟩ := hx.unique hx'
      rw [ih ht', Prod.ext h1 h2]

theorem natText_unique {s : List Byte} {n m : Nat} (h : NatText s n) (h' : NatText s m) : n = m :=
  h.2.2.2.symm.trans h'.2.2.2

theorem status_oneLine {ct reason : List Byte} {n : Nat} (h : NatText ct n) (hr : OneLine reason) :
    OneLine (b!"HTTP/1.1 " ++ ct ++ 32 :: reason) := by
  intro c hc
  simp only [List.mem_append] at hc
  rcases hc with (hc | hc) | hc
  · revert hc; revert c; decide
  · exact (natText_oneLine h).1 c hc
  · rcases List.mem_cons.mp hc with rfl | hc
    · decide
    · exact hr c hc

/-- The bytes of a response determine its code, fields and body. -/
theorem Response.unique {bytes : List Byte} {c c' : Nat} {f f' : List (List Byte × List Byte)} {body body' : List Byte}
    (h : Response bytes c f body) (h' : Response bytes c' f' body') : c = c' ∧ f = f' ∧ body = body' := by
  obtain ⟨ct, re, lines, rfl, h1, h2, h3, h4⟩ := h
  obtain ⟨ct', re', lines', e, h1', h2', h3', h4'⟩ := h'
  obtain ⟨e1, e2⟩ := first_crlf (fun c hc => ((status_oneLine h1 h3) c hc).1)
    (fun c hc => ((status_oneLine h1' h3') c hc).1) e
  simp only [List.cons.injEq, true_and] at e2
  obtain ⟨rfl, rfl⟩ := lines_unique (fields_lines h4) (fields_lines h4') e2
  simp only [List.append_assoc, List.append_cancel_left_eq] at e1
  obtain ⟨rfl, -⟩ := List.append_inj e1 (by rw [h2, h2'])
  exact ⟨natText_unique h1 h1', fields_unique h4 h4', rfl⟩

/-- A text whose second line has no colon is not a response. -/
theorem not_response {l1 l2 rest : List Byte} (h1 : OneLine l1) (h2 : OneLine l2) (h0 : l2 ≠ [])
    (hc : (58 : Byte) ∉ l2) {c : Nat} {f : List (List Byte × List Byte)} {body : List Byte} :
    ¬ Response (l1 ++ 13 :: 10 :: (l2 ++ 13 :: 10 :: rest)) c f body := by
  rintro ⟨ct, re, lines, e, g1, g2, g3, g4⟩
  obtain ⟨-, e2⟩ := first_crlf (fun c hc => (h1 c hc).1) (fun c hc => ((status_oneLine g1 g3) c hc).1) e
  simp only [List.cons.injEq, true_and] at e2
  cases lines with
  | nil =>
    have e2 : l2 ++ 13 :: (10 :: rest) = [] ++ 13 :: (10 :: body) := by simpa using e2
    exact h0 (first_crlf (fun c hc => (h2 c hc).1) (by simp) e2).1
  | cons l ls =>
    cases g4 with
    | cons hx ht =>
      have e2 : l2 ++ 13 :: (10 :: rest) = l ++ 13 :: (10 :: (ls.flatMap (fun l => l ++ [13, 10]) ++ 13 :: 10 :: body)) := by
        simpa using e2
      have := (first_crlf (fun c hc => (h2 c hc).1) (fun c hc => (hx.oneLine c hc).1) e2).1
      exact hc (this ▸ hx.has_colon)

/-- A text whose third line has no colon is not a response. -/
theorem not_response3 {l1 l2 l3 rest : List Byte} (h1 : OneLine l1) (h2 : OneLine l2) (h0 : l2 ≠ [])
    (h3 : OneLine l3) (h30 : l3 ≠ []) (hc : (58 : Byte) ∉ l3) {c : Nat} {f : List (List Byte × List Byte)}
    {body : List Byte} :
    ¬ Response (l1 ++ 13 :: 10 :: (l2 ++ 13 :: 10 :: (l3 ++ 13 :: 10 :: rest))) c f body := by
  rintro ⟨ct, re, lines, e, g1, g2, g3, g4⟩
  obtain ⟨-, e2⟩ := first_crlf (fun c hc => (h1 c hc).1) (fun c hc => ((status_oneLine g1 g3) c hc).1) e
  simp only [List.cons.injEq, true_and] at e2
  cases lines with
  | nil =>
    have e2 : l2 ++ 13 :: (10 :: (l3 ++ 13 :: 10 :: rest)) = [] ++ 13 :: (10 :: body) := by simpa using e2
    exact h0 (first_crlf (fun c hc => (h2 c hc).1) (by simp) e2).1
  | cons l ls =>
    cases g4 with
    | cons hx ht =>
      have e2 : l2 ++ 13 :: (10 :: (l3 ++ 13 :: 10 :: rest)) =
          l ++ 13 :: (10 :: (ls.flatMap (fun l => l ++ [13, 10]) ++ 13 :: 10 :: body)) := by
        simpa using e2
      obtain ⟨-, e3⟩ := first_crlf (fun c hc => (h2 c hc).1) (fun c hc => (hx.oneLine c hc).1) e2
      simp only [List.cons.injEq, true_and] at e3
      cases ls with
      | nil =>
        have e3 : l3 ++ 13 :: (10 :: rest) = [] ++ 13 :: (10 :: body) := by simpa using e3
        exact h30 (first_crlf (fun c hc => (h3 c hc).1) (by simp) e3).1
      | cons l' ls =>
        cases ht with
        | cons hx' ht =>
          have e3 : l3 ++ 13 :: (10 :: rest) =
              l' ++ 13 :: (10 :: (ls.flatMap (fun l => l ++ [13, 10]) ++ 13 :: 10 :: body)) := by
            simpa using e3
          have := (first_crlf (fun c hc => (h3 c hc).1) (fun c hc => (hx'.oneLine c hc).1) e3).1
          exact hc (this ▸ hx'.has_colon)

end Wayuu.Spec
