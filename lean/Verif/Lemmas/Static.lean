import Verif.Spec.Static
import Verif.Lemmas.Files
import Verif.Lemmas.Served
/-
Static files (ws.c:313-350) and what reaches the socket in any case.
-/
namespace Wayuu
open C Spec FS

theorem comps_ne_nil (s : Str) : comps s ≠ [] := by
  cases s with
  | nil => simp [comps]
  | cons c s =>
    unfold comps
    split
    · simp
    · split <;> simp

theorem comps_append (a b : Str) : comps (a ++ 47 :: b) = comps a ++ comps b := by
  induction a with
  | nil => simp [comps]
  | cons c a ih =>
    simp only [List.cons_append, comps, ih]
    by_cases hc : c = 47
    · simp [hc]
    · simp only [hc, if_false]
      cases h : comps a with
      | nil => exact absurd h (comps_ne_nil a)
      | cons x t => simp

theorem mem_comps {c path : Str} (h : c ∈ comps path) :
    ∃ a b, path = a ++ c ++ b ∧ (a = [] ∨ a.getLast? = some 47) ∧ (b = [] ∨ b.head? = some 47) := by
  -- the first component is a prefix, the others follow a '/'
  have key : ∀ path : Str, ∀ x t, comps path = x :: t →
      (∃ b, path = x ++ b ∧ (b = [] ∨ b.head? = some 47)) ∧
      ∀ c ∈ t, ∃ a b, path = a ++ c ++ b ∧ a.getLast? = some 47 ∧ (b = [] ∨ b.head? = some 47) := by
    intro path
    induction path with
    | nil => intro x t h; simp [comps] at h; obtain ⟨rfl, rfl⟩ := h; simp
    | cons p path ih =>
      intro x t h
      unfold comps at h
      by_cases hp : p = 47
      · simp only [hp, if_true, List.cons.injEq] at h
        obtain ⟨rfl, rfl⟩ := h
        refine ⟨⟨p :: path, rfl, Or.inr (by simp [hp])⟩, ?_⟩
        intro c hc
        obtain ⟨y, u, hy⟩ := List.exists_cons_of_ne_nil (comps_ne_nil path)
        obtain ⟨h1, h2⟩ := ih y u hy
        rw [hy] at hc
        rcases List.mem_cons.mp hc with rfl | hc
        · obtain ⟨b, hb, hb'⟩ := h1
          exact ⟨[p], b, by simp [hb], by simp [hp], hb'⟩
        · obtain ⟨a, b, e, ha, hb⟩ := h2 c hc
          refine ⟨p :: a, b, by simp [e], ?_, hb⟩
          cases a with
          | nil => simp at ha
          | cons z a => simpa [List.getLast?_cons_cons] using ha
      · simp only [hp, if_false] at h
        obtain ⟨y, u, hy⟩ := List.exists_cons_of_ne_nil (comps_ne_nil path)
        obtain ⟨h1, h2⟩ := ih y u hy
        simp only [hy, List.cons.injEq] at h
        obtain ⟨rfl, rfl⟩ := h
        refine ⟨?_, ?_⟩
        · obtain ⟨b, hb, hb'⟩ := h1
          exact ⟨b, by rw [hb]; rfl, hb'⟩
        · intro c hc
          obtain ⟨a, b, e, ha, hb⟩ := h2 c hc
          refine ⟨p :: a, b, by simp [e], ?_, hb⟩
          cases a with
          | nil => simp at ha
          | cons z a => simpa [List.getLast?_cons_cons] using ha
  obtain ⟨x, t, hx⟩ := List.exists_cons_of_ne_nil (comps_ne_nil path)
  obtain ⟨h1, h2⟩ := key path x t hx
  rw [hx] at h
  rcases List.mem_cons.mp h with rfl | h
  · obtain ⟨b, hb, hb'⟩ := h1
    exact ⟨[], b, by simpa using hb, Or.inl rfl, hb'⟩
  · obtain ⟨a, b, e, ha, hb⟩ := h2 c h
    exact ⟨a, b, e, Or.inr ha, hb⟩

theorem _root_.Wayuu.Spec.NoDotDot.comps {path : Str} (h : NoDotDot path) : b!".." ∉ comps path := by
  intro hc
  obtain ⟨a, b, e, h1, h2⟩ := mem_comps hc
  exact h ⟨a, b, e, h1, h2⟩

/-- Walking without ".." only looks at the objects on the way. -/
theorem walk_same {fs fs' : FS} (cs cur : List Str) (hdd : b!".." ∉ cs)
    (h : ∀ p, p <+: cur ++ cs.filter (fun c => decide (c ≠ [] ∧ c ≠ b!".")) → fs.nodeAt p = fs'.nodeAt p) :
    fs.walk cur cs = fs'.walk cur cs ∧
    ∀ p, fs.walk cur cs = some p → p = cur ++ cs.filter (fun c => decide (c ≠ [] ∧ c ≠ b!".")) := by
  induction cs generalizing cur with
  | nil => simp [walk]
  | cons c cs ih =>
    have hcur : fs.nodeAt cur = fs'.nodeAt cur := h cur (List.prefix_append _ _)
    have hc : c ≠ b!".." := fun e => hdd (by simp [e])
    have hcs : b!".." ∉ cs := fun e => hdd (by simp [e])
    simp only [walk, hcur]
    by_cases hd : fs'.nodeAt cur = some .dir
    · simp only [hd, ne_eq, not_true_eq_false, if_false]
      by_cases he : c = [] ∨ c = b!"."
      · simp only [he, if_true]
        have hf : ¬ (c ≠ [] ∧ c ≠ b!".") := by tauto
        have := ih cur hcs (by simpa [hf] using h)
        simpa [hf] using this
      · simp only [he, hc, if_false]
        have hf : c ≠ [] ∧ c ≠ b!"." := by tauto
        have := ih (cur ++ [c]) hcs (by simpa [hf] using h)
        simpa [hf] using this
    · simp [hd]

theorem place_append (a b : Str) : place (a ++ 47 :: b) = place a ++ place b := by
  unfold place
  rw [comps_append, List.filter_append]

/-- A file under a root, named without "..": it looks the same in trees that agree under that root. -/
theorem sameUnder_file {fs fs' : FS} {root path : Str} (hr : NoDotDot root) (hp : NoDotDot path)
    (h : SameUnder (place root) fs fs') :
    is_file fs (root ++ 47 :: path) = is_file fs' (root ++ 47 :: path) ∧
    fs.openRead (root ++ 47 :: path) = fs'.openRead (root ++ 47 :: path) := by
  have hdd : b!".." ∉ comps (root ++ 47 :: path) := by
    rw [comps_append, List.mem_append]
    rintro (e | e)
    · exact hr.comps e
    · exact hp.comps e
  have hag : ∀ p, p <+: [] ++ (comps (root ++ 47 :: path)).filter (fun c => decide (c ≠ [] ∧ c ≠ b!".")) →
      fs.node p = fs'.node p ∧ fs.canRead p = fs'.canRead p := by
    intro p hpre
    rw [List.nil_append, comps_append, List.filter_append] at hpre
    exact h p ((List.prefix_or_prefix_of_prefix hpre (List.prefix_append _ _)).symm)
  have hnode : ∀ p, fs.node p = fs'.node p → fs.nodeAt p = fs'.nodeAt p := by
    intro p e; simp [nodeAt, e]
  obtain ⟨w1, w2⟩ := walk_same (comps (root ++ 47 :: path)) [] hdd (fun p hp => hnode p (hag p hp).1)
  have hres : fs.resolve (root ++ 47 :: path) = fs'.resolve (root ++ 47 :: path) := by simp [resolve, w1]
  have hloc : ∀ p, fs.resolve (root ++ 47 :: path) = some p → fs.nodeAt p = fs'.nodeAt p ∧ fs.canRead p = fs'.canRead p := by
    intro p e
    simp [resolve] at e
    have := hag p (by rw [w2 p e]; exact List.prefix_rfl)
    exact ⟨hnode p this.1, this.2⟩
  constructor
  · unfold is_file lookup
    rw [← hres]
    cases e : fs.resolve (root ++ 47 :: path) with
    | none => rfl
    | some p => simp [(hloc p e).1]
  · unfold openRead
    rw [← hres]
    cases e : fs.resolve (root ++ 47 :: path) with
    | none => rfl
    | some p => simp [(hloc p e).1, (hloc p e).2]

/-! ### the same request on another file tree -/

/-- The same state with another file tree. -/
def St.withFs (st : St) (fs : FS) : St := { st with fs := fs }

/-- `y` is `x` with its result changed by `T`. -/
def Via {α : Type} (T : α → α) (x y : C α) : Prop := y = x.bind (fun a => ok (T a))

theorem Via.bind {α β : Type} {T : α → α} {U : β → β} {x y : C α} {f g : α → C β} (h : Via T x y)
    (hf : ∀ a, x = ok a → Via U (f a) (g (T a))) : Via U (x >>= f) (y >>= g) := by
  unfold Via at *
  cases x with
  | ok a =>
    subst h
    exact hf a rfl
  | ub e => subst h; rfl

theorem Via.same {α β : Type} {U : β → β} {x : C α} {f g : α → C β}
    (hf : ∀ a, x = ok a → Via U (f a) (g a)) : Via U (x >>= f) (x >>= g) := by
  unfold Via at *
  cases x with
  | ok a => exact hf a rfl
  | ub e => rfl

theorem Via.ok {α : Type} {T : α → α} {a b : α} (h : b = T a) : Via T (C.ok a) (C.ok b) := by subst h; rfl
theorem Via.ub {α : Type} {T : α → α} {e : Fault} : Via T (C.ub e) (C.ub e) := rfl

/-- Another file tree, beside a result. -/
def andFs {α : Type} (fs : FS) (p : α × St) : α × St := (p.1, p.2.withFs fs)
/-- The same, before a result. -/
def fsAnd {α : Type} (fs : FS) (p : St × α) : St × α := (p.1.withFs fs, p.2)

theorem http_print_fs (fs : FS) (st : St) (d : List Byte) (n : Int) :
    Via (St.withFs · fs) (http_print st d n) (http_print (st.withFs fs) d n) := by
  unfold http_print
  simp only
  split
  · exact .ub
  · exact .ok rfl

theorem http_print_str_fs (fs : FS) (st : St) (d : List Byte) :
    Via (St.withFs · fs) (http_print_str st d) (http_print_str (st.withFs fs) d) := http_print_fs fs st d _

theorem log_access_fs (env : Env) (fs : FS) (st : St) (n : Int) :
    Via (St.withFs · fs) (log_access env st n) (log_access env (st.withFs fs) n) := by
  unfold log_access
  refine .same (x := http_get_header st.req _) fun _ _ => .same (x := http_get_header st.req _) fun _ _ => .same fun _ _ => .same fun _ _ => .ok ?_
  unfold appendLog
  split <;> rfl

theorem send_http_status_fs (env : Env) (fs : FS) (st : St) (n : Int) (m : Str) :
    Via (St.withFs · fs) (send_http_status env st n m) (send_http_status env (st.withFs fs) n m) := by
  unfold send_http_status
  split
  · exact .ok rfl
  · refine .same fun _ _ => .same fun _ _ => .same fun _ _ => .bind (http_print_str_fs fs _ _) fun a _ => ?_
    refine .bind (http_print_str_fs fs { a with req := { a.req with response_length := _ } } _) fun b _ => ?_
    exact log_access_fs env fs { b with req := { b.req with response_length := _ } } n

theorem sessionHeaders_fs (fs : FS) (st : St) (n : Nat) (s : Str) :
    Via (andFs fs) (sessionHeaders st n s) (sessionHeaders (st.withFs fs) n s) := by
  unfold sessionHeaders
  split
  · exact .same fun _ _ => .bind (http_print_fs fs _ _ _) fun _ _ => .ok rfl
  · exact .ok rfl

theorem return_headers_fs (fs : FS) (st : St) (f : Str) :
    Via (andFs fs) (return_headers st f) (return_headers (st.withFs fs) f) := by
  unfold return_headers
  refine .same fun _ _ => .bind (http_print_fs fs _ _ _) fun _ _ => .same fun _ _ => .bind (http_print_fs fs _ _ _) fun a _ => ?_
  refine .same (x := cstr a.req.session) fun _ _ => .bind (sessionHeaders_fs fs _ _ _) fun _ _ => ?_
  exact .bind (http_print_fs fs _ _ _) fun _ _ => .ok rfl

theorem return_file_fs (fs : FS) (st : St) (f : Str) (h : st.fs.openRead f = fs.openRead f) :
    Via (andFs fs) (return_file st f) (return_file (st.withFs fs) f) := by
  unfold return_file
  simp only [h, show (st.withFs fs).fs = fs from rfl]
  split
  · refine .bind (http_print_fs fs _ _ _) fun _ _ => .ok ?_
    simp only [andFs]
  · exact .ok rfl

theorem http_print_sameFs {st st' : St} {d : List Byte} {n : Int} (h : http_print st d n = ok st') : st'.fs = st.fs := by
  unfold http_print at h
  simp only at h
  split at h
  · cases h
  · cases h; rfl

theorem sessionHeaders_sameFs {st st' : St} {n m : Nat} {s : Str} (h : sessionHeaders st n s = ok (m, st')) : st'.fs = st.fs := by
  unfold sessionHeaders at h
  split at h
  · obtain ⟨_, -, h⟩ := bind_eq_ok.mp h
    obtain ⟨s1, h1, h⟩ := bind_eq_ok.mp h
    cases h
    exact http_print_sameFs h1
  · cases h; rfl

theorem return_headers_sameFs {st st' : St} {n : Nat} {f : Str} (h : return_headers st f = ok (n, st')) : st'.fs = st.fs := by
  unfold return_headers at h
  obtain ⟨_, -, h⟩ := bind_eq_ok.mp h
  obtain ⟨s1, h1, h⟩ := bind_eq_ok.mp h
  obtain ⟨_, -, h⟩ := bind_eq_ok.mp h
  obtain ⟨s2, h2, h⟩ := bind_eq_ok.mp h
  obtain ⟨_, -, h⟩ := bind_eq_ok.mp h
  obtain ⟨⟨_, s3⟩, h3, h⟩ := bind_eq_ok.mp h
  obtain ⟨s4, h4, h⟩ := bind_eq_ok.mp h
  cases h
  rw [http_print_sameFs h4, sessionHeaders_sameFs h3, http_print_sameFs h2, http_print_sameFs h1]

theorem direct_file_fs (env : Env) (fs : FS) (st : St) (f : Str) (h1 : is_file st.fs f = is_file fs f)
    (h2 : st.fs.openRead f = fs.openRead f) :
    Via (andFs fs) (direct_file env st f) (direct_file env (st.withFs fs) f) := by
  unfold direct_file
  simp only [h1, show (st.withFs fs).fs = fs from rfl]
  split
  · exact .ok rfl
  · refine .bind (return_headers_fs fs _ _) fun a ha => ?_
    refine .bind (return_file_fs fs _ _ (by rw [return_headers_sameFs ha]; exact h2)) fun b _ => ?_
    refine .same fun _ _ => ?_
    exact .bind (log_access_fs env fs { b.2 with req := { b.2.req with response_length := _ } } _) fun _ _ => .ok rfl

/-- A failure of `direct_file` has no effect. -/
theorem direct_file_neg {env : Env} {st st' : St} {f : Str} {r : Int} (h : direct_file env st f = ok (r, st')) :
    (r < 0 ∧ is_file st.fs f = false ∧ st' = st) ∨ (r = 0 ∧ is_file st.fs f = true) := by
  unfold direct_file at h
  cases hf : is_file st.fs f with
  | false =>
    simp only [hf, Bool.not_false, if_true, ok.injEq, Prod.mk.injEq] at h
    exact Or.inl ⟨by omega, rfl, h.2.symm⟩
  | true =>
    simp only [hf, Bool.not_true, Bool.false_eq_true, if_false] at h
    obtain ⟨_, -, h⟩ := bind_eq_ok.mp h
    obtain ⟨_, -, h⟩ := bind_eq_ok.mp h
    obtain ⟨_, -, h⟩ := bind_eq_ok.mp h
    obtain ⟨_, -, h⟩ := bind_eq_ok.mp h
    simp only [ok.injEq, Prod.mk.injEq] at h
    exact Or.inr ⟨h.1.symm, rfl⟩

theorem handle_static_fs (env : Env) (fs : FS) (st : St)
    (h : ∀ p, rewritePath env st.req.path = ok p ∨ p = env.wwwIndex →
      is_file st.fs (env.staticRoot ++ b!"/" ++ p) = is_file fs (env.staticRoot ++ b!"/" ++ p) ∧
      st.fs.openRead (env.staticRoot ++ b!"/" ++ p) = fs.openRead (env.staticRoot ++ b!"/" ++ p)) :
    Via (St.withFs · fs) (handle_static_routes env st) (handle_static_routes env (st.withFs fs)) := by
  unfold handle_static_routes
  refine .same (x := rewritePath env st.req.path) fun p hp => .same fun q hq => ?_
  obtain ⟨-, rfl⟩ := fmtInto_eq_ok.mp hq
  obtain ⟨h1, h2⟩ := h p (Or.inl hp)
  refine .bind (direct_file_fs env fs { st with req := { st.req with path := p } } _ h1 h2) fun a ha => ?_
  show Via _ (if a.1 < 0 then _ else _) (if a.1 < 0 then _ else _)
  rcases direct_file_neg ha with ⟨hr, -, he⟩ | ⟨hr, -⟩
  · simp only [hr, if_true]
    refine .same fun i hi => ?_
    obtain ⟨-, rfl⟩ := fmtInto_eq_ok.mp hi
    obtain ⟨h3, h4⟩ := h env.wwwIndex (Or.inr rfl)
    exact .bind (direct_file_fs env fs a.2 _ (by rw [he]; exact h3) (by rw [he]; exact h4)) fun _ _ => .ok rfl
  · simp only [show ¬ a.1 < 0 by omega, if_false]
    exact .ok rfl

/-- The path a static request ends up with. -/
theorem rewritePath_cases {env : Env} {path p : Str} (h : rewritePath env path = ok p) :
    p = env.wwwIndex ∨ p = env.favicon ∨ p = path ++ b!"index.html" ∨ p = path := by
  unfold rewritePath at h
  obtain ⟨_, -, h⟩ := bind_eq_ok.mp h
  split at h
  · cases h; exact Or.inl rfl
  · split at h
    · cases h; exact Or.inr (Or.inl rfl)
    · obtain ⟨_, -, h⟩ := bind_eq_ok.mp h
      split at h
      · exact Or.inr (Or.inr (Or.inl (fmtInto_eq_ok.mp h).2))
      · cases h; exact Or.inr (Or.inr (Or.inr rfl))

theorem _root_.Wayuu.Spec.NoDotDot.index {path : Str} (h : NoDotDot path) : NoDotDot (path ++ b!"index.html") := by
  rintro ⟨a, b, e, h1, h2⟩
  have hne : b ≠ [] := by
    rintro rfl
    have := congrArg List.getLast? e
    rw [List.append_nil, List.getLast?_append_of_ne_nil _ (by decide), List.getLast?_append_of_ne_nil _ (by decide)] at this
    revert this; decide
  have hb : b.head? = some 47 := h2.resolve_left hne
  rcases List.append_eq_append_iff.mp e with ⟨x, e1, e2⟩ | ⟨x, e1, e2⟩
  · -- ".." ends inside "index.html"
    cases b with
    | nil => exact hne rfl
    | cons c b =>
      simp only [List.head?_cons, Option.some.injEq] at hb
      subst hb
      have : (47 : Byte) ∈ b!"index.html" := by rw [e2]; simp
      revert this; decide
  · refine h ⟨a, x, e1, h1, ?_⟩
    cases x with
    | nil => exact Or.inl rfl
    | cons c x =>
      rw [e2] at hb
      exact Or.inr hb

end Wayuu
