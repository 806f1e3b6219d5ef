import Verif.Props.Multipart
import Verif.Props.Router
/-
C101: a handler can tell the fields of a form apart (ws.c:165-210, 244-277).
-/
namespace Wayuu
open C Spec

/-- A field that arrives as it was sent (C45_partial): bytes 35 to 127 in its name, no NUL in its value. -/
def Sane (f : Str × Str) : Prop := f.1 ≠ [] ∧ (∀ c ∈ f.1, 35 ≤ c.toNat ∧ c.toNat ≤ 127) ∧ NulFree f.2

/-- The body of a form with these fields, none of them a file. -/
abbrev FormBody (delim : List Byte) (fields : List (Str × Str)) (body : List Byte) : Prop :=
  Multipart (fun f t => FieldPart f.1 f.2 t ∧ ¬ b!"; filename=\"" <:+: t) delim fields body

/-- C101 in full: forms with different fields are different for the handler. -/
def C101_statement : Prop :=
  ∀ (env : Env) (fs : FS) (delim body body' : List Byte) (fields fields' : List (Str × Str)) (form form' : Buf) (text : Str),
    Delimiter delim → FormBody delim fields body → FormBody delim fields' body' →
    (∀ f ∈ fields, Sane f) → (∀ f ∈ fields', Sane f) →
    multipart_parse env fs (body.map some ++ [some 0]) delim body.length = ok (form, fs) →
    multipart_parse env fs (body'.map some ++ [some 0]) delim body'.length = ok (form', fs) →
    cstr form = ok text → cstr form' = ok text → fields = fields'

/-- What the handler gets. -/
theorem form_text {env : Env} {fs : FS} {delim body : List Byte} {fields : List (Str × Str)} {form : Buf} {text : Str}
    (hd : Delimiter delim) (hm : FormBody delim fields body) (hn : ∀ f ∈ fields, Sane f)
    (h : multipart_parse env fs (body.map some ++ [some 0]) delim body.length = ok (form, fs)) (hc : cstr form = ok text) :
    text = formText fields := by
  obtain ⟨form', h1, h2, -⟩ := C45_partial env fs delim body fields hd hm (fun f hf => (hn f hf).2)
  rw [h] at h1
  cases h1
  rw [hc] at h2
  cases h2
  rfl

theorem byte_split {d : Byte} {p p' r r' : List Byte} (hp : d ∉ p) (hp' : d ∉ p') (h : p ++ d :: r = p' ++ d :: r') :
    p = p' ∧ r = r' := by
  induction p generalizing p' with
  | nil =>
    cases p' with
    | nil => simpa using h
    | cons x p' => simp at h; simp [h.1] at hp'
  | cons x p ih =>
    cases p' with
    | nil => simp at h; simp [h.1] at hp
    | cons y p' =>
      simp only [List.cons_append, List.cons.injEq] at h
      have := ih (fun hc => hp (by simp [hc])) (fun hc => hp' (by simp [hc])) h.2
      exact ⟨by rw [h.1, this.1], this.2⟩

/-- The fields can be read off the text if no name contains '=' and neither names nor values contain '&'. -/
theorem formText_inj {fields fields' : List (Str × Str)}
    (h : ∀ f ∈ fields, (61 : Byte) ∉ f.1 ∧ (38 : Byte) ∉ f.1 ∧ (38 : Byte) ∉ f.2)
    (h' : ∀ f ∈ fields', (61 : Byte) ∉ f.1 ∧ (38 : Byte) ∉ f.1 ∧ (38 : Byte) ∉ f.2)
    (e : formText fields = formText fields') : fields = fields' := by
  have one : ∀ f : Str × Str, ((38 : Byte) ∉ f.1 ∧ (38 : Byte) ∉ f.2) → (38 : Byte) ∉ f.1 ++ b!"=" ++ f.2 := by
    intro f hf hc
    simp only [List.mem_append, List.mem_singleton] at hc
    rcases hc with (hc | hc) | hc
    · exact hf.1 hc
    · revert hc; decide
    · exact hf.2 hc
  have pair : ∀ f g : Str × Str, (61 : Byte) ∉ f.1 → (61 : Byte) ∉ g.1 → f.1 ++ b!"=" ++ f.2 = g.1 ++ b!"=" ++ g.2 → f = g := by
    intro f g hf hg he
    have he : f.1 ++ 61 :: f.2 = g.1 ++ 61 :: g.2 := by simpa using he
    obtain ⟨e1, e2⟩ := byte_split hf hg he
    exact Prod.ext e1 e2
  have ne : ∀ (f : Str × Str) (fs : List (Str × Str)), formText (f :: fs) ≠ [] := by
    intro f fs
    cases fs <;> simp [formText, sepBy]
  have cons2 : ∀ (f g : Str × Str) (fs : List (Str × Str)),
      formText (f :: g :: fs) = (f.1 ++ b!"=" ++ f.2) ++ 38 :: formText (g :: fs) := by
    intro f g fs
    simp [formText, sepBy]
  have single : ∀ f : Str × Str, formText [f] = f.1 ++ b!"=" ++ f.2 := by
    intro f
    simp [formText, sepBy]
  induction fields generalizing fields' with
  | nil =>
    cases fields' with
    | nil => rfl
    | cons f fs => exact absurd e.symm (ne f fs)
  | cons f fs ih =>
    cases fields' with
    | nil => exact absurd e (ne f fs)
    | cons g gs =>
      have hf := h f (by simp)
      have hg := h' g (by simp)
      cases fs with
      | nil =>
        cases gs with
        | nil =>
          rw [single, single] at e
          rw [pair f g hf.1 hg.1 e]
        | cons g2 gs =>
          rw [single, cons2] at e
          exact absurd (show (38 : Byte) ∈ f.1 ++ b!"=" ++ f.2 by rw [e]; simp) (one f hf.2)
      | cons f2 fs =>
        cases gs with
        | nil =>
          rw [single, cons2] at e
          exact absurd (show (38 : Byte) ∈ g.1 ++ b!"=" ++ g.2 by rw [← e]; simp) (one g hg.2)
        | cons g2 gs =>
          rw [cons2, cons2] at e
          obtain ⟨e1, e2⟩ := byte_split (one f hf.2) (one g hg.2) e
          rw [pair f g hf.1 hg.1 e1, ih (fun x hx => h x (by simp [hx])) (fun x hx => h' x (by simp [hx])) e2]

/-- C101, what holds: forms whose names contain neither '=' nor '&' and whose values contain no '&'. -/
theorem C101_partial (env : Env) (fs : FS) (delim body body' : List Byte) (fields fields' : List (Str × Str))
    (form form' : Buf) (text : Str) (hd : Delimiter delim) (hm : FormBody delim fields body)
    (hm' : FormBody delim fields' body') (hn : ∀ f ∈ fields, Sane f) (hn' : ∀ f ∈ fields', Sane f)
    (hc : ∀ f ∈ fields, (61 : Byte) ∉ f.1 ∧ (38 : Byte) ∉ f.1 ∧ (38 : Byte) ∉ f.2)
    (hc' : ∀ f ∈ fields', (61 : Byte) ∉ f.1 ∧ (38 : Byte) ∉ f.1 ∧ (38 : Byte) ∉ f.2)
    (h : multipart_parse env fs (body.map some ++ [some 0]) delim body.length = ok (form, fs))
    (h' : multipart_parse env fs (body'.map some ++ [some 0]) delim body'.length = ok (form', fs))
    (ht : cstr form = ok text) (ht' : cstr form' = ok text) : fields = fields' :=
  formText_inj hc hc' ((form_text hd hm hn h ht).symm.trans (form_text hd hm' hn' h' ht'))

/-- C101, forged fields: whatever fields a form has, there is a text that, sent as the value of the first of them alone,
gives the handler the same form. So whoever may choose one value chooses all fields after it. -/
theorem C101_forged (env : Env) (fs : FS) (delim body body' : List Byte) (name v : Str) (rest : List (Str × Str))
    (form form' : Buf) (text text' : Str) (hrest : rest ≠ []) (hd : Delimiter delim)
    (hm : FormBody delim ((name, v) :: rest) body) (hn : ∀ f ∈ (name, v) :: rest, Sane f)
    (hm' : FormBody delim [(name, v ++ b!"&" ++ formText rest)] body')
    (h : multipart_parse env fs (body.map some ++ [some 0]) delim body.length = ok (form, fs))
    (h' : multipart_parse env fs (body'.map some ++ [some 0]) delim body'.length = ok (form', fs))
    (ht : cstr form = ok text) (ht' : cstr form' = ok text') : text = text' := by
  have hz : ∀ l : List (Str × Str), (∀ f ∈ l, Sane f) → NulFree (formText l) := by
    intro l
    induction l with
    | nil => intro _; simp [formText, sepBy, NulFree]
    | cons f l ih =>
      intro hl
      have hf := hl f (by simp)
      have h1 : NulFree (f.1 ++ b!"=" ++ f.2) := by
        intro c hc
        simp only [List.mem_append, List.mem_singleton] at hc
        rcases hc with (hc | rfl) | hc
        · have := (hf.2.1 c hc).1
          rintro rfl
          revert this; decide
        · decide
        · exact hf.2.2 c hc
      have h2 := ih (fun x hx => hl x (by simp [hx]))
      cases l with
      | nil => simpa [formText, sepBy] using h1
      | cons g l =>
        have e : formText (f :: g :: l) = (f.1 ++ b!"=" ++ f.2) ++ 38 :: formText (g :: l) := by simp [formText, sepBy]
        rw [e]
        intro c hc
        rcases List.mem_append.mp hc with hc | hc
        · exact h1 c hc
        · rcases List.mem_cons.mp hc with rfl | hc
          · decide
          · exact h2 c hc
  rw [form_text hd hm hn h ht, form_text hd hm' ?_ h' ht']
  · cases rest with
    | nil => exact absurd rfl hrest
    | cons g l => simp [formText, sepBy]
  · intro f hf
    rw [List.mem_singleton] at hf
    subst hf
    have h0 := hn _ (by simp : (name, v) ∈ _)
    refine ⟨h0.1, h0.2.1, ?_⟩
    intro c hc
    rcases List.mem_append.mp hc with hc | hc
    · rcases List.mem_append.mp hc with hc | hc
      · exact h0.2.2 c hc
      · rw [List.mem_singleton] at hc; subst hc; decide
    · exact hz rest (fun x hx => hn x (by simp [hx])) c hc

/-- C101, forged uploads: two fields, the second one named `tmpfile`, give the handler the form that a file named `orig` stored
as `path` in the temporary folder would give (compare C12), for every `path`, `../../etc/passwd` for example. Nothing is
stored. -/
theorem C101_upload (env : Env) (fs : FS) (delim body : List Byte) (name orig path : Str) (hd : Delimiter delim)
    (hm : FormBody delim [(name, orig), (b!"tmpfile", path)] body) (hn : Sane (name, orig)) (hp : NulFree path) :
    ∃ form, multipart_parse env fs (body.map some ++ [some 0]) delim body.length = ok (form, fs) ∧
      cstr form = ok (name ++ b!"=" ++ orig ++ b!"&tmpfile=" ++ path) := by
  obtain ⟨form, h1, h2, -⟩ := C45_partial env fs delim body _ hd hm (by
    intro f hf
    simp only [List.mem_cons, List.not_mem_nil, or_false] at hf
    rcases hf with rfl | rfl
    · exact hn.2
    · exact ⟨show ∀ c ∈ b!"tmpfile", _ by decide, hp⟩)
  exact ⟨form, h1, by simpa [formText, sepBy] using h2⟩

/-- C101, the path: a path with an ampersand in its parameter gives the handler further parameters. -/
theorem C101_param (env : Env) (st : St) (regs : List Registration) (r : Registration) (pre name v : Str)
    (rest : List (Str × Str)) (room : Buf) (h : Nat) (hv : ∀ r ∈ regs, r.template.Valid) (hreg : register regs = ok env.routes)
    (hrest : rest ≠ []) (hz : NulFree (v ++ b!"&" ++ formText rest))
    (hl : st.req.method.length + 1 + st.req.path.length < 255) (ht : r.template = .param pre name)
    (hp : st.req.method ++ b!":" ++ st.req.path = pre ++ (v ++ b!"&" ++ formText rest))
    (hm : FirstMatch regs (pre ++ (v ++ b!"&" ++ formText rest)) r) (hd : r.handler = some h)
    (hform : st.req.form = some 0 :: room) (hname : name.length ≤ 2 * pre.length + 8) :
    ∃ form, cstr form = ok (formText ((name, v) :: rest)) ∧
      ∀ st' ev, router_handle_request env st = ok (st', ev) ↔
        Dispatched env h r.filter { st with req := { st.req with form := form } } st' ev := by
  obtain ⟨form, h1, h2⟩ := (C27_partial env st regs r pre name (v ++ b!"&" ++ formText rest) [] room h hv hreg
    (fun c hc => by cases hc) hz hl ht hp hm hd (by simpa using hform)).1 hname (Or.inl rfl)
  refine ⟨form, ?_, h2⟩
  rw [h1, if_pos rfl]
  cases rest with
  | nil => exact absurd rfl hrest
  | cons g l => simp [formText, sepBy]

/-! ### a comment that sets a role -/

/-- A body with one field. -/
def oneField (n v : Str) : List Byte := b!"--xY" ++ partText [] [] n [] v ++ b!"--xY--\r\n"

theorem oneField_form {n v : Str} (hn : ∀ c ∈ n, c ≠ 0 ∧ c ≠ 10 ∧ c ≠ 13 ∧ c ≠ 34)
    (h1 : ¬ b!"; filename=\"" <:+: partText [] [] n [] v) (h2 : ¬ b!"--xY" <:+: partText [] [] n [] v) :
    FormBody b!"--xY" [(n, v)] (oneField n v) :=
  ⟨[], partText [] [] n [] v ++ b!"--xY" ++ b!"--\r\n", by unfold oneField; simp, by decide, Or.inl rfl,
    Parts.part _ _ _ _ ⟨⟨[], [], by simp, by simp, hn, rfl⟩, h1⟩ h2 (Parts.last _ (by decide))⟩

theorem twoFields_form {n1 v1 n2 v2 : Str} (hn1 : ∀ c ∈ n1, c ≠ 0 ∧ c ≠ 10 ∧ c ≠ 13 ∧ c ≠ 34)
    (hn2 : ∀ c ∈ n2, c ≠ 0 ∧ c ≠ 10 ∧ c ≠ 13 ∧ c ≠ 34)
    (h1 : ¬ b!"; filename=\"" <:+: partText [] [] n1 [] v1) (h2 : ¬ b!"--xY" <:+: partText [] [] n1 [] v1)
    (h3 : ¬ b!"; filename=\"" <:+: partText [] [b!"Content-Type: text/plain"] n2 [] v2)
    (h4 : ¬ b!"--xY" <:+: partText [] [b!"Content-Type: text/plain"] n2 [] v2) :
    FormBody b!"--xY" [(n1, v1), (n2, v2)] (twoFields n1 v1 n2 v2) :=
  twoFields_multipart ⟨⟨[], [], by simp, by simp, hn1, rfl⟩, h1⟩
    ⟨⟨[], [b!"Content-Type: text/plain"], by simp, by simp only [List.mem_singleton, forall_eq]; exact ⟨by simp, by decide⟩,
      hn2, rfl⟩, h3⟩ h2 h4

theorem role_one : FormBody b!"--xY" [(b!"text", b!"hi&role=admin")] (oneField b!"text" b!"hi&role=admin") :=
  oneField_form (by decide) (by decide +kernel) (by decide +kernel)

theorem role_two : FormBody b!"--xY" [(b!"text", b!"hi"), (b!"role", b!"admin")] (twoFields b!"text" b!"hi" b!"role" b!"admin") :=
  twoFields_form (by decide) (by decide) (by decide +kernel) (by decide +kernel) (by decide +kernel) (by decide +kernel)

theorem role_sane : (∀ f ∈ [(b!"text", b!"hi&role=admin")], Sane f) ∧ ∀ f ∈ [(b!"text", b!"hi"), (b!"role", b!"admin")], Sane f := by
  unfold Sane NulFree
  decide

/-- C101 is false of the code: nothing is escaped, so a text with an ampersand counts as two fields. -/
theorem C101_refuted : ¬ C101_statement := by
  intro h
  obtain ⟨f1, a1, b1, -⟩ := C45_partial sampleEnv ⟨fun _ => none, fun _ => true, fun _ => true⟩ _ _ _ xY_delimiter role_one
    (fun f hf => (role_sane.1 f hf).2)
  obtain ⟨f2, a2, b2, -⟩ := C45_partial sampleEnv ⟨fun _ => none, fun _ => true, fun _ => true⟩ _ _ _ xY_delimiter role_two
    (fun f hf => (role_sane.2 f hf).2)
  have := h _ _ _ _ _ _ _ f1 f2 _ xY_delimiter role_one role_two role_sane.1 role_sane.2 a1 a2 b1 (b2.trans (by decide))
  revert this
  decide

example : ∀ f ∈ [(b!"text", b!"hi"), (b!"role", b!"a=dmin")], (61 : Byte) ∉ f.1 ∧ (38 : Byte) ∉ f.1 ∧ (38 : Byte) ∉ f.2 := by
  decide
example : FormBody b!"--xY" [(b!"text", b!"hi" ++ b!"&" ++ formText [(b!"role", b!"admin")])] (oneField b!"text" b!"hi&role=admin") :=
  role_one
example : FormBody b!"--xY" [(b!"doc", b!"a.pdf"), (b!"tmpfile", b!"../../etc/passwd")]
      (twoFields b!"doc" b!"a.pdf" b!"tmpfile" b!"../../etc/passwd") ∧ Sane (b!"doc", b!"a.pdf") :=
  ⟨twoFields_form (by decide) (by decide) (by decide +kernel) (by decide +kernel) (by decide +kernel) (by decide +kernel),
    by unfold Sane NulFree; decide⟩

example : FirstMatch sampleRegs (b!"GET:/user/" ++ (b!"5" ++ b!"&" ++ formText [(b!"role", b!"admin")]))
      ⟨.param b!"GET:/user/" b!"id", some 3, none⟩ ∧ (some 0 :: ([] : Buf)) = strdup [] ∧
    formText [(b!"id", b!"5"), (b!"role", b!"admin")] = b!"id=5&role=admin" :=
  ⟨⟨[⟨.const b!"GET:/a", some 1, some 2⟩], _, rfl, ⟨⟨[], b!"5&role=admin", rfl⟩, by decide⟩, by
    intro r' hr'
    simp only [List.mem_cons, List.not_mem_nil, or_false] at hr'
    subst hr'
    show ¬ _ = _
    decide⟩, rfl, rfl⟩

end Wayuu
