import Verif.Props.Router
/-
Properties C127 and C128: order of the routes, and templates other than PREFIX{name}.
-/
namespace Wayuu
open C Spec

/-! ### C127 -/

/-- C127 in full: with different templates it does not matter in which order they are registered. -/
def C127_statement : Prop :=
  ∀ (env : Env) (st : St) (regs regs' : List Registration) (t t' : List Route),
    regs.Perm regs' → (∀ r ∈ regs, r.template.Valid) → regs.Pairwise (fun a b => a.template ≠ b.template) →
    register regs = ok t → register regs' = ok t' →
    router_handle_request { env with routes := t } st = router_handle_request { env with routes := t' } st

/-- C127 is false: with `GET:/user/{id}` before `GET:/user/list` the second is never run. -/
theorem C127_refuted : ¬ C127_statement := by
  intro h
  have := h sampleEnv { sampleSt with req := { sampleReq with path := b!"/user/list" } }
    [⟨.param b!"GET:/user/" b!"id", some 3, none⟩, ⟨.const b!"GET:/user/list", some 4, none⟩]
    [⟨.const b!"GET:/user/list", some 4, none⟩, ⟨.param b!"GET:/user/" b!"id", some 3, none⟩] _ _
    (List.Perm.swap ..) (by decide) (by decide) (by rfl) (by rfl)
  have := congrArg (fun x => x.bind fun p => ok p.2) this
  revert this
  decide +kernel

/-- The earliest match, if there is a match. -/
theorem firstMatch_exists {m : Str} {r : Registration} (regs : List Registration) (hr : r ∈ regs) (hm : r.template.Matches m) :
    ∃ r' ∈ regs, FirstMatch regs m r' := by
  induction regs with
  | nil => simp at hr
  | cons a regs ih =>
    by_cases ha : a.template.Matches m
    · exact ⟨a, by simp, [], regs, rfl, ha, by simp⟩
    · have : r ∈ regs := by
        rcases List.mem_cons.mp hr with rfl | h
        · exact absurd hm ha
        · exact h
      obtain ⟨r', h1, x, y, h2, h3, h4⟩ := ih this
      refine ⟨r', by simp [h1], a :: x, y, by rw [h2]; rfl, h3, ?_⟩
      intro z hz
      rcases List.mem_cons.mp hz with rfl | hz
      · exact ha
      · exact h4 z hz

/-- C127, what holds: the order does not matter for requests that match one registered template at most. Missing: requests that match
several of them. -/
theorem C127_partial (env : Env) (st : St) (regs regs' : List Registration) (t t' : List Route)
    (hp : regs.Perm regs') (hv : ∀ r ∈ regs, r.template.Valid)
    (hone : ∀ r ∈ regs, ∀ r' ∈ regs, r.template.Matches (st.req.method ++ b!":" ++ st.req.path) →
      r'.template.Matches (st.req.method ++ b!":" ++ st.req.path) → r = r')
    (ht : register regs = ok t) (ht' : register regs' = ok t') :
    router_handle_request { env with routes := t } st = router_handle_request { env with routes := t' } st := by
  have hv' : ∀ r ∈ regs', r.template.Valid := fun r hr => hv r (hp.mem_iff.mpr hr)
  obtain ⟨-, -, hr⟩ := (register_eq hv).mp ht
  obtain ⟨-, -, hr'⟩ := (register_eq hv').mp ht'
  by_cases hl : st.req.method.length + st.req.path.length < 254
  · by_cases hm : ∃ r ∈ regs, r.template.Matches st.target
    · obtain ⟨r, h1, h2⟩ := hm
      obtain ⟨a, ha, hfa⟩ := firstMatch_exists regs h1 h2
      obtain ⟨b, hb, hfb⟩ := firstMatch_exists regs' (hp.mem_iff.mp h1) h2
      have e : a = b := hone a ha b (hp.mem_iff.mpr hb) (by obtain ⟨x, y, -, h, -⟩ := hfa; exact h)
        (by obtain ⟨x, y, -, h, -⟩ := hfb; exact h)
      subst e
      rw [router_some (env := { env with routes := t }) hr hl hfa, router_some (env := { env with routes := t' }) hr' hl hfb]
      rfl
    · have hm1 : ∀ r ∈ regs, ¬ r.template.Matches st.target := fun r h1 h2 => hm ⟨r, h1, h2⟩
      rw [router_none (env := { env with routes := t }) hr hl hm1,
        router_none (env := { env with routes := t' }) hr' hl (fun r h => hm1 r (hp.mem_iff.mpr h))]
      rfl
  · rw [router_over (by omega), router_over (by omega)]

theorem distinct_templates {regs : List Registration} (hd : regs.Pairwise (fun a b => a.template ≠ b.template))
    {r r' : Registration} (hr : r ∈ regs) (hr' : r' ∈ regs) (hne : r ≠ r') : r.template ≠ r'.template := by
  induction hd with
  | nil => simp at hr
  | cons h _ ih =>
    rcases List.mem_cons.mp hr with e1 | h1 <;> rcases List.mem_cons.mp hr' with e2 | h2
    · exact absurd (e1.trans e2.symm) hne
    · rw [e1]; exact h _ h2
    · rw [e2]; exact (h _ h1).symm
    · exact ih h1 h2

/-- C127, fixed paths: if no template has a parameter, the order never matters. -/
theorem C127_fixed (env : Env) (st : St) (regs regs' : List Registration) (t t' : List Route)
    (hp : regs.Perm regs') (hv : ∀ r ∈ regs, r.template.Valid) (hc : ∀ r ∈ regs, ∃ text, r.template = .const text)
    (hd : regs.Pairwise (fun a b => a.template ≠ b.template)) (ht : register regs = ok t) (ht' : register regs' = ok t') :
    router_handle_request { env with routes := t } st = router_handle_request { env with routes := t' } st := by
  refine C127_partial env st regs regs' t t' hp hv ?_ ht ht'
  intro r hr r' hr' h1 h2
  by_contra hne
  obtain ⟨x, hx⟩ := hc r hr
  obtain ⟨y, hy⟩ := hc r' hr'
  rw [hx] at h1
  rw [hy] at h2
  have h1' : _ = x := h1
  have h2' : _ = y := h2
  have : r.template ≠ r'.template := distinct_templates hd hr hr' hne
  apply this
  rw [hx, hy, ← h1', ← h2']

/-- C127, the rest: every route that matches is the one that is taken, in a suitable order of the same registrations. So the order matters
for a request as soon as two templates match it. -/
theorem C127_matters (env : Env) (st : St) (regs : List Registration) (t0 : List Route) (r : Registration) (h : Nat)
    (hv : ∀ r ∈ regs, r.template.Valid) (ht : register regs = ok t0) (hr : r ∈ regs)
    (hm : r.template.Matches (st.req.method ++ b!":" ++ st.req.path)) (hh : r.handler = some h) :
    ∃ regs' t, regs'.Perm regs ∧ register regs' = ok t ∧
      ∀ st' ev, router_handle_request { env with routes := t } st = ok (st', ev) →
        ∃ form, Dispatched { env with routes := t } h r.filter { st with req := { st.req with form := form } } st' ev := by
  have hp : (r :: regs.erase r).Perm regs := (List.perm_cons_erase hr).symm
  obtain ⟨k1, k2, -⟩ := (register_eq hv).mp ht
  refine ⟨r :: regs.erase r, _, hp, (register_eq (fun x hx => hv x (hp.mem_iff.mp hx))).mpr
    ⟨fun x hx => k1 x (hp.mem_iff.mp hx), by rw [hp.length_eq]; exact k2, rfl⟩, fun st' ev hrun => ?_⟩
  have hl : st.req.method.length + st.req.path.length < 254 := by
    by_contra hl
    rw [router_over (by omega)] at hrun
    cases hrun
  rw [router_some (env := { env with routes := (r :: regs.erase r).map regRoute }) rfl hl ⟨[], _, rfl, hm, by simp⟩, hh] at hrun
  obtain ⟨form, -, hrun⟩ := bind_eq_ok.mp hrun
  exact ⟨form, runUser_dispatched.mp hrun⟩

/-- Both routes match /user/list, and each of them is taken in some order. -/
example : ∀ r ∈ [(⟨.param b!"GET:/user/" b!"id", some 3, none⟩ : Registration), ⟨.const b!"GET:/user/list", some 4, none⟩], ∃ regs' t,
    regs'.Perm [⟨.param b!"GET:/user/" b!"id", some 3, none⟩, ⟨.const b!"GET:/user/list", some 4, none⟩] ∧ register regs' = ok t ∧
      ∀ st' ev, router_handle_request { sampleEnv with routes := t } { sampleSt with req := { sampleReq with path := b!"/user/list" } } =
        ok (st', ev) → ∃ form, Dispatched { sampleEnv with routes := t } (r.handler.getD 0) r.filter
          { sampleSt with req := { sampleReq with path := b!"/user/list", form := form } } st' ev := by
  intro r hr
  have hm : r.template.Matches b!"GET:/user/list" ∧ r.handler = some (r.handler.getD 0) := by
    simp only [List.mem_cons, List.not_mem_nil, or_false] at hr
    rcases hr with rfl | rfl
    · exact ⟨⟨⟨[], b!"list", rfl⟩, by decide⟩, rfl⟩
    · exact ⟨rfl, rfl⟩
  exact C127_matters sampleEnv { sampleSt with req := { sampleReq with path := b!"/user/list" } } _ _ r _ (by decide) (by rfl) hr hm.1 hm.2

/-- C127_partial applies: /user/7 matches one of the two. -/
example : ∃ t t', register [⟨.param b!"GET:/user/" b!"id", some 3, none⟩, ⟨.const b!"GET:/a", some 4, none⟩] = ok t ∧
    register [⟨.const b!"GET:/a", some 4, none⟩, ⟨.param b!"GET:/user/" b!"id", some 3, none⟩] = ok t' ∧
    router_handle_request { sampleEnv with routes := t } { sampleSt with req := { sampleReq with path := b!"/user/7" } } =
    router_handle_request { sampleEnv with routes := t' } { sampleSt with req := { sampleReq with path := b!"/user/7" } } := by
  refine ⟨_, _, by rfl, by rfl, C127_partial sampleEnv _ [⟨.param b!"GET:/user/" b!"id", some 3, none⟩, ⟨.const b!"GET:/a", some 4, none⟩]
    _ _ _ (List.Perm.swap ..) (by decide) ?_ (by rfl) (by rfl)⟩
  intro r hr r' hr' h1 h2
  simp only [List.mem_cons, List.not_mem_nil, or_false] at hr hr'
  rcases hr with rfl | rfl <;> rcases hr' with rfl | rfl
  · rfl
  · exact absurd (show b!"GET:/user/7" = b!"GET:/a" from h2) (by decide)
  · exact absurd (show b!"GET:/user/7" = b!"GET:/a" from h1) (by decide)
  · rfl

/-! ### C128 -/

/-- C128 in full: a route may have any characters before its parameter, and text after it; what a request has in the place of the
parameter is what the handler gets. -/
def C128_statement : Prop :=
  ∀ (env : Env) (st : St) (pre name tail v : Str) (h : Nat) (t : List Route),
    NulFree (pre ++ name ++ tail ++ v) → (123 : Byte) ∉ pre ++ name ++ tail → (125 : Byte) ∉ name → 1 ≤ name.length → name.length ≤ 8 →
    router_add_route [] (pre ++ b!"{" ++ name ++ b!"}" ++ tail) (some h) none = ok t → env.routes = t →
    st.req.method ++ b!":" ++ st.req.path = pre ++ v ++ tail → v ≠ [] → (47 : Byte) ∉ v →
    st.req.method.length + 1 + st.req.path.length < 255 → st.req.form = strdup [] → (∀ st, ∃ st', env.handle h st = ok st') →
    ∃ st' form, router_handle_request env st = ok (st', [.handler h { st.req with form := form }]) ∧
      cstr form = ok (name ++ b!"=" ++ v)

theorem resolveScan_stop (p : Str) (r : Buf) (x : Byte) (hp : ∀ c ∈ p, c ≠ 0 ∧ c ≠ 123 ∧ c < 128)
    (hx : x = 123 ∨ x = 0 ∨ 128 ≤ x) (n i : Nat) (q : Buf) (hi : i = q.length) (hn : p.length < n) :
    resolveScan (q ++ (p.map some ++ some x :: r)) n i = ok (i + p.length) := by
  induction p generalizing n i q with
  | nil =>
    obtain ⟨n, rfl⟩ : ∃ k, n = k + 1 := ⟨n - 1, by simp at hn; omega⟩
    unfold resolveScan
    rw [load_append_right (by omega)]
    subst hi
    simp only [Nat.sub_self, List.map_nil, List.nil_append, load_cons_zero, ok_bind]
    rw [if_neg]
    · simp
    · rcases hx with rfl | rfl | hx
      · simp
      · simp [schar]
      · rintro ⟨h, -⟩
        unfold schar at h
        have h128 : ¬ x < 128 := UInt8.not_lt.mpr hx
        rw [if_neg h128] at h
        have := x.toNat_lt
        omega
  | cons c p ih =>
    obtain ⟨n, rfl⟩ : ∃ k, n = k + 1 := ⟨n - 1, by simp at hn; omega⟩
    unfold resolveScan
    rw [load_append_right (by omega)]
    subst hi
    simp only [Nat.sub_self, List.map_cons, List.cons_append, load_cons_zero, ok_bind]
    obtain ⟨h0, h1, h2⟩ := hp c (by simp)
    have hs : 0 < schar c := by
      unfold schar
      rw [if_pos h2]
      have : c.toNat ≠ 0 := fun h => h0 (UInt8.toNat_inj.mp (by simpa using h))
      omega
    rw [if_pos ⟨hs, h1⟩]
    have := ih (fun c hc => hp c (by simp [hc])) n (q.length + 1) (q ++ [some c]) (by simp) (by simp at hn; omega)
    simp only [List.append_assoc, List.cons_append, List.nil_append] at this
    rw [this]
    simp [Nat.add_assoc, Nat.add_comm 1]

theorem resolve_any {p q : Str} {x c : Byte} (hp : ∀ c ∈ p, c ≠ 0 ∧ c ≠ 123 ∧ c < 128) (hx : x = 123 ∨ 128 ≤ x) (hq : NulFree q) :
    router_resolve_route (p ++ [x] ++ q ++ [c]) = (if p.length < 256 ∧ q.length < 64 then ok (p, q) else ub .oob) := by
  have hz : NulFree p := fun c h => (hp c h).1
  unfold router_resolve_route
  simp only [Buf.storeI]
  rw [if_neg (by simp; omega)]
  have e : (((p ++ [x] ++ q ++ [c]).length : Int) - 1).toNat = ((p ++ [x] ++ q).map some).length := by
    simp; omega
  rw [e]
  have e2 : strdup (p ++ [x] ++ q ++ [c]) = ((p ++ [x] ++ q).map some) ++ some c :: [some 0] := by
    simp [strdup]
  rw [e2, store_append_cons rfl]
  simp only [ok_bind]
  have e3 : (p ++ [x] ++ q).map some ++ some 0 :: [some 0] =
      ([] : Buf) ++ (p.map some ++ some x :: (q.map some ++ some 0 :: [some 0])) := by simp
  rw [e3, resolveScan_stop p _ x hp (by tauto) _ 0 [] rfl (by simp; omega)]
  simp only [ok_bind, List.nil_append, Nat.zero_add]
  have e4 : p.map some ++ some x :: (q.map some ++ some 0 :: [some 0]) =
      (p ++ [x]).map some ++ (q.map some ++ some 0 :: [some 0]) := by simp
  rw [e4, strAt_mk (by simp) hq]
  simp only [ok_bind]
  by_cases h2 : q.length < 64
  · rw [fmtInto_ok (show _ + 1 ≤ 64 by omega)]
    simp only [ok_bind]
    rw [← e4, store_append_cons (by simp)]
    simp only [ok_bind]
    rw [cstr_mk hz]
    simp only [ok_bind]
    by_cases h1 : p.length < 256
    · rw [fmtInto_ok (show _ + 1 ≤ 256 by omega)]
      simp [h1, h2]
    · rw [fmtInto_over (show 256 < _ by omega)]
      simp [h1]
  · rw [fmtInto_over (show 64 < _ by omega)]
    simp [h2]

/-- C128, all templates with a '{': the prefix ends at the first '{' or byte outside ASCII, whichever comes first; that byte and the
last one of the template are dropped, and what is in between is taken for the name of the parameter. -/
theorem C128_exact (table : List Route) (p q : Str) (x c : Byte) (h f : Option Nat) (hp : ∀ c ∈ p, c ≠ 0 ∧ c ≠ 123 ∧ c < 128)
    (hx : x = 123 ∨ 128 ≤ x) (hq : NulFree q) (hb : (123 : Byte) ∈ [x] ++ q ++ [c]) :
    router_add_route table (p ++ [x] ++ q ++ [c]) h f =
      (if p.length < 256 ∧ q.length < 64 ∧ table.length < 128 then ok (table ++ [⟨true, p, q, h, f⟩]) else ub .oob) := by
  have hs : strchr (p ++ [x] ++ q ++ [c]) 123 = true := by
    unfold strchr
    simp only [List.mem_append, List.append_assoc, List.contains_iff_mem] at *
    tauto
  unfold router_add_route
  rw [hs, if_pos rfl, resolve_any hp hx hq]
  by_cases h1 : p.length < 256 ∧ q.length < 64
  · rw [if_pos h1]
    simp only [ok_bind]
    by_cases h2 : table.length < 128
    · rw [if_neg (show ¬ 128 ≤ _ by omega), if_pos ⟨h1.1, h1.2, h2⟩]
    · rw [if_pos (show 128 ≤ _ by omega), if_neg (fun h => h2 h.2.2)]
  · rw [if_neg h1, if_neg (fun h => h1 ⟨h.1, h.2.1⟩)]
    rfl

/-- C128, text after the parameter: such a template is the same as one that ends in a parameter with an odd name. -/
theorem C128_tail (table : List Route) (pre name tail : Str) (h f : Option Nat) (hp : ∀ c ∈ pre, c ≠ 0 ∧ c ≠ 123 ∧ c < 128)
    (hn : NulFree (name ++ tail)) (ht : tail ≠ []) :
    router_add_route table (pre ++ b!"{" ++ name ++ b!"}" ++ tail) h f =
      router_add_route table (Template.param pre (name ++ b!"}" ++ tail.dropLast)).text h f := by
  obtain ⟨y, c, rfl⟩ : ∃ y c, tail = y ++ [c] := ⟨tail.dropLast, tail.getLast ht, (List.dropLast_append_getLast ht).symm⟩
  have hq : NulFree (name ++ b!"}" ++ y) := by
    intro z hz
    simp only [List.mem_append, List.mem_singleton] at hz
    rcases hz with (hz | hz) | hz
    · exact hn z (by simp [hz])
    · rw [hz]; decide
    · exact hn z (by simp [hz])
  have e1 : pre ++ b!"{" ++ name ++ b!"}" ++ (y ++ [c]) = pre ++ [123] ++ (name ++ b!"}" ++ y) ++ [c] := by simp
  have e2 : (Template.param pre (name ++ b!"}" ++ (y ++ [c]).dropLast)).text = pre ++ [123] ++ (name ++ b!"}" ++ y) ++ [125] := by
    simp [Template.text]
  rw [e1, e2, C128_exact table _ _ _ _ h f hp (Or.inl rfl) hq (by simp), C128_exact table _ _ _ _ h f hp (Or.inl rfl) hq (by simp)]

/-- C128, what holds: ASCII before the parameter and nothing after it. Missing: everything else (see C128_exact). -/
theorem C128_partial (env : Env) (st : St) (pre name v : Str) (h : Nat) (t : List Route) (hn : NulFree (name ++ v))
    (hp : ∀ c ∈ pre, c ≠ 0 ∧ c ≠ 123 ∧ c < 128) (hname : name.length ≤ 2 * pre.length + 8)
    (ht : router_add_route [] (pre ++ b!"{" ++ name ++ b!"}") (some h) none = ok t) (he : env.routes = t)
    (hm : st.req.method ++ b!":" ++ st.req.path = pre ++ v) (hv : v ≠ [])
    (hl : st.req.method.length + 1 + st.req.path.length < 255) (hform : st.req.form = strdup [])
    (hok : ∀ st, ∃ st', env.handle h st = ok st') :
    ∃ st' form, router_handle_request env st = ok (st', [.handler h { st.req with form := form }]) ∧
      cstr form = ok (name ++ b!"=" ++ v) := by
  have hreg : register [⟨.param pre name, some h, none⟩] = ok env.routes := by
    unfold register
    rw [List.foldlM_cons, he]
    show (router_add_route [] (pre ++ b!"{" ++ name ++ b!"}") (some h) none >>= _) = _
    rw [ht]
    rfl
  have hval : ∀ r ∈ [(⟨.param pre name, some h, none⟩ : Registration)], r.template.Valid := by
    intro r hr
    rw [List.mem_singleton.mp hr]
    exact ⟨hp, fun c hc => hn c (by simp [hc])⟩
  obtain ⟨k, -⟩ := C27_partial env st [⟨.param pre name, some h, none⟩] ⟨.param pre name, some h, none⟩ pre name v [] [] h hval hreg
    (by simp) (fun c hc => hn c (by simp [hc])) hl rfl hm
    ⟨[], [], rfl, ⟨⟨[], v, by simp⟩, by simpa using hv⟩, by simp⟩ rfl (by rw [hform]; rfl)
  obtain ⟨form, e1, e2⟩ := k hname (Or.inl rfl)
  obtain ⟨st', e3⟩ := hok { st with req := { st.req with form := form } }
  refine ⟨st', form, (e2 st' _).mpr ?_, by simpa using e1⟩
  exact ⟨e3, rfl⟩

/-- What becomes of `GET:/user/{id}/posts`: all of "7/posts" is the parameter, and its name is "id}/post". -/
theorem C128_witness : (router_add_route [] b!"GET:/user/{id}/posts" (some 3) none).bind (fun t =>
      (router_handle_request { sampleEnv with routes := t } { sampleSt with req := { sampleReq with path := b!"/user/7/posts" } }).bind
        (fun x => ok x.2)) =
    ok [.handler 3 { sampleReq with path := b!"/user/7/posts", form := strdup b!"id}/post=7/posts" }] := by
  decide +kernel

/-- C128 is false. -/
theorem C128_refuted : ¬ C128_statement := by
  intro h
  obtain ⟨st', form, h1, h2⟩ := h { sampleEnv with routes := [⟨true, b!"GET:/user/", b!"id}/post", some 3, none⟩] }
    { sampleSt with req := { sampleReq with path := b!"/user/7/posts" } } b!"GET:/user/" b!"id" b!"/posts" b!"7" 3 _ (by decide) (by decide)
    (by decide) (by decide) (by decide) (by rfl) rfl (by decide) (by decide) (by decide) (by decide) (by decide) (fun st => ⟨st, rfl⟩)
  have hw := C128_witness
  have ht : router_add_route [] b!"GET:/user/{id}/posts" (some 3) none = ok [⟨true, b!"GET:/user/", b!"id}/post", some 3, none⟩] := by
    decide +kernel
  rw [ht] at hw
  have hw' : (router_handle_request { sampleEnv with routes := [⟨true, b!"GET:/user/", b!"id}/post", some 3, none⟩] }
    { sampleSt with req := { sampleReq with path := b!"/user/7/posts" } }).bind (fun x => ok x.2) = _ := hw
  rw [h1] at hw'
  have e : [Event.handler 3 _] = _ := C.ok.inj hw'
  injection e with e _
  injection e with _ e
  have e' := congrArg Req.form e
  have e'' : form = strdup b!"id}/post=7/posts" := e'
  rw [e''] at h2
  revert h2
  decide +kernel

/-- C128_exact, a letter outside ASCII before the parameter ends the prefix: `GET:/caf\xc3\xa9/{id}` matches every /caf. -/
example (h f : Option Nat) : router_add_route [] (b!"GET:/caf" ++ [195] ++ ([169] ++ b!"/{id") ++ b!"}") h f =
    ok [⟨true, b!"GET:/caf", [169] ++ b!"/{id", h, f⟩] :=
  C128_exact [] b!"GET:/caf" ([169] ++ b!"/{id") 195 125 h f (by decide) (by decide) (by decide) (by decide)

/-- C128_partial applies. -/
example : ∃ st' form, router_handle_request { sampleEnv with routes := [⟨true, b!"GET:/user/", b!"id", some 3, none⟩] }
    { sampleSt with req := { sampleReq with path := b!"/user/7" } } =
      ok (st', [.handler 3 { sampleReq with path := b!"/user/7", form := form }]) ∧ cstr form = ok b!"id=7" :=
  C128_partial _ _ b!"GET:/user/" b!"id" b!"7" 3 _ (by decide) (by decide) (by decide) (by rfl) rfl rfl (by decide) (by decide) rfl
    (fun st => ⟨st, rfl⟩)

end Wayuu
