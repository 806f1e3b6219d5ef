import Verif.Model.RouterLife
import Verif.Props.Router
/-
Property C91 (router.c, the life of the routing table).
-/
namespace Wayuu.RouterLife
open C Spec

/-- What a program does with the router. -/
inductive Use where
  | init
  | add (r : Registration)
  | free

/-- The C call. -/
def Use.call : Use → RCall
  | .init => .init
  | .add r => .add r.template.text r.handler r.filter
  | .free => .free

def Use.isInit : Use → Bool
  | .init => true
  | _ => false

def Use.reg? : Use → Option Registration
  | .add r => some r
  | _ => none

/-- The registrations since the last `router_init`, in order. -/
def sinceInit (us : List Use) : List Registration := (us.reverse.takeWhile (fun u => !u.isInit)).reverse.filterMap Use.reg?

/-- At no time are there more than 128 routes, and all templates are valid and fit. -/
def Modest (us : List Use) : Prop :=
  (∀ r, .add r ∈ us → r.template.Valid ∧ r.template.Fits) ∧ ∀ a b, us = a ++ b → (sinceInit a).length ≤ 128

/-- C91: after any use of the router within its capacity, a request is handled as `C25` says, among the routes registered since the
last `router_init`. -/
def C91_statement : Prop :=
  ∀ (env : Env) (us : List Use) (st : St), Modest us → ∃ t, calls (us.map Use.call) = ok t ∧ ∃ routes, register (sinceInit us) = ok routes ∧
    request env t st = router_handle_request { env with routes := routes } st

theorem sinceInit_snoc (us : List Use) (u : Use) :
    sinceInit (us ++ [u]) = (match u with | .init => [] | .add r => sinceInit us ++ [r] | .free => sinceInit us) := by
  unfold sinceInit
  rw [List.reverse_append, List.reverse_singleton, List.singleton_append, List.takeWhile_cons]
  cases u <;> simp [Use.isInit, Use.reg?]

theorem calls_snoc (cs : List RCall) (c : RCall) : calls (cs ++ [c]) = (do let t ← calls cs; call t c) := by
  unfold calls
  rw [List.foldlM_append]
  congr 1
  funext t
  rw [List.foldlM_cons]
  cases call t c <;> rfl

/-- The entries for registrations, none of them freed. -/
def fresh (regs : List Registration) : Table := regs.map (fun r => (regRoute r, false))

theorem add_fresh {regs : List Registration} {r : Registration} (hv : r.template.Valid) (hf : r.template.Fits) (hn : regs.length < 128) :
    call (fresh regs) (.add r.template.text r.handler r.filter) = ok (fresh (regs ++ [r])) := by
  have h := foldlM_register [r] (regs.map regRoute) (by simpa using hv)
  rw [if_pos ⟨by simpa using hf, Or.inr (by simp; omega)⟩] at h
  have h2 : router_add_route (regs.map regRoute) r.template.text r.handler r.filter = ok (regs.map regRoute ++ [regRoute r]) := by
    rw [List.foldlM_cons] at h
    cases hc : router_add_route (regs.map regRoute) r.template.text r.handler r.filter with
    | ub f => rw [hc] at h; cases h
    | ok t => rw [hc] at h; simpa using h
  have e : (fresh regs).map (·.1) = regs.map regRoute := by simp [fresh, Function.comp_def]
  unfold call
  simp only [e, h2, ok_bind]
  simp [fresh]

/-- No `free_routing_table`, except right before a `router_init`. -/
def Orderly (us : List Use) : Prop := ∀ a b, us = a ++ .free :: b → ∃ b', b = .init :: b'

/-- The table of orderly programs; for the sake of the induction also between `free_routing_table` and `router_init`. -/
theorem orderly_calls (us : List Use) (hm : Modest us) (ho : ∀ a b, us = a ++ .free :: b → b = [] ∨ ∃ b', b = .init :: b') :
    calls (us.map Use.call) = ok (fresh (sinceInit us)) ∨
      ((∃ a, us = a ++ [.free]) ∧ ∃ t, calls (us.map Use.call) = ok t) := by
  induction us using List.reverseRecOn with
  | nil => exact Or.inl rfl
  | append_singleton us u ih =>
    have hm' : Modest us := ⟨fun r hr => hm.1 r (by simp [hr]), fun a b e => hm.2 a (b ++ [u]) (by rw [e]; simp)⟩
    have ho' : ∀ a b, us = a ++ .free :: b → b = [] ∨ ∃ b', b = .init :: b' := by
      intro a b e
      rcases ho a (b ++ [u]) (by rw [e]; simp) with h | ⟨b', h⟩
      · simp at h
      · cases b with
        | nil => exact Or.inl rfl
        | cons x b =>
          simp only [List.cons_append, List.cons.injEq] at h
          exact Or.inr ⟨b, by rw [h.1]⟩
    rw [List.map_append, List.map_cons, List.map_nil, calls_snoc, sinceInit_snoc]
    rcases ih hm' ho' with h | ⟨⟨a, h1⟩, t, h2⟩
    · rw [h]
      cases u with
      | init => exact Or.inl rfl
      | add r =>
        left
        obtain ⟨v, f⟩ := hm.1 r (by simp)
        have hl := hm.2 (us ++ [.add r]) [] (by simp)
        rw [sinceInit_snoc] at hl
        simp only [List.length_append, List.length_singleton] at hl
        exact add_fresh v f (by omega)
      | free =>
        right
        refine ⟨⟨us, rfl⟩, (fresh (sinceInit us)).map (fun e => (e.1, true)), ?_⟩
        show call _ .free = _
        unfold call
        dsimp only
        rw [if_neg]
        simp [fresh]
    · rw [h2]
      rcases ho a [u] (by rw [h1]; simp) with h | ⟨b', h⟩
      · cases h
      · cases h
        exact Or.inl rfl

theorem readable_fresh (m : Str) (regs : List Registration) : readable m (fresh regs) = true := by
  induction regs with
  | nil => rfl
  | cons r regs ih =>
    show readable m ((regRoute r, false) :: fresh regs) = true
    simp [readable, ih]

/-- C91 for programs that call `free_routing_table` only right before `router_init`. -/
theorem C91_partial (env : Env) (us : List Use) (st : St) (hm : Modest us) (ho : Orderly us) :
    ∃ t, calls (us.map Use.call) = ok t ∧ ∃ routes, register (sinceInit us) = ok routes ∧
      request env t st = router_handle_request { env with routes := routes } st := by
  have h := orderly_calls us hm (fun a b e => Or.inr (ho a b e))
  have h1 : calls (us.map Use.call) = ok (fresh (sinceInit us)) := by
    rcases h with h | ⟨⟨a, h⟩, -⟩
    · exact h
    · obtain ⟨b', h'⟩ := ho a [] h
      cases h'
  have hsub : ∀ r ∈ sinceInit us, .add r ∈ us := by
    clear h1 h ho hm
    induction us using List.reverseRecOn with
    | nil => intro r hr; simp [sinceInit] at hr
    | append_singleton us u ih =>
      intro r hr
      rw [sinceInit_snoc] at hr
      cases u with
      | init => simp at hr
      | add q =>
        simp only [List.mem_append, List.mem_singleton] at hr
        rcases hr with hr | rfl
        · simp [ih r hr]
        · simp
      | free => simp [ih r hr]
  refine ⟨_, h1, (sinceInit us).map regRoute, (register_eq (fun r hr => (hm.1 r (hsub r hr)).1)).mpr
    ⟨fun r hr => (hm.1 r (hsub r hr)).2, hm.2 us [] (by simp), rfl⟩, ?_⟩
  unfold request
  by_cases hl : st.req.method.length + st.req.path.length < 254
  · rw [fmtInto_ok (by simp; omega)]
    simp only [ok_bind, readable_fresh, Bool.not_true, Bool.false_eq_true, if_false]
    have e : (fresh (sinceInit us)).map (·.1) = (sinceInit us).map regRoute := by simp [fresh, Function.comp_def]
    rw [e]
  · rw [fmtInto_over (by simp; omega), ub_bind]
    symm
    exact router_over (by omega)

/-- C91, how it fails: once the routes have been freed, every request that fits the buffer reads a freed matcher, whatever is registered
afterwards, and freeing again frees the same matchers twice. -/
theorem C91_freed (env : Env) (us more : List Use) (st : St) (hm : Modest (us ++ Use.free :: more)) (ho : Orderly us) (hne : sinceInit us ≠ [])
    (hmore : ∀ u ∈ more, ∃ r, u = .add r) (hl : st.req.method.length + st.req.path.length < 254) :
    ∃ t, calls ((us ++ Use.free :: more).map Use.call) = ok t ∧ request env t st = ub .badFree ∧
      calls ((us ++ Use.free :: (more ++ [.free])).map Use.call) = ub .badFree := by
  have hm0 : Modest us := ⟨fun r hr => hm.1 r (by simp [hr]), fun a b e => hm.2 a (b ++ Use.free :: more) (by rw [e]; simp)⟩
  have h0 : calls (us.map Use.call) = ok (fresh (sinceInit us)) := by
    rcases orderly_calls us hm0 (fun a b e => Or.inr (ho a b e)) with h | ⟨⟨a, h⟩, -⟩
    · exact h
    · obtain ⟨b', h'⟩ := ho a [] h
      cases h'
  obtain ⟨r0, rs0, hr0⟩ : ∃ r rs, sinceInit us = r :: rs := by
    cases h : sinceInit us with
    | nil => exact absurd h hne
    | cons r rs => exact ⟨r, rs, rfl⟩
  -- the table keeps its freed entries
  have key : ∀ more, Modest (us ++ Use.free :: more) → (∀ u ∈ more, ∃ r, u = .add r) →
      ∃ t, calls ((us ++ Use.free :: more).map Use.call) = ok ((regRoute r0, true) :: t) ∧ t.length + 1 = (sinceInit (us ++ Use.free :: more)).length := by
    intro more
    induction more using List.reverseRecOn with
    | nil =>
      intro _ _
      refine ⟨(fresh rs0).map (fun e => (e.1, true)), ?_, ?_⟩
      · rw [List.map_append, List.map_cons, List.map_nil, calls_snoc, h0, hr0]
        show call (fresh (r0 :: rs0)) .free = _
        unfold call
        dsimp only
        rw [if_neg (by simp [fresh])]
        rfl
      · rw [sinceInit_snoc]
        simp [hr0, fresh]
    | append_singleton more u ih =>
      intro hm hadd
      have hm' : Modest (us ++ Use.free :: more) :=
        ⟨fun r hr => hm.1 r (by
          simp only [List.mem_append, List.mem_cons] at hr ⊢
          rcases hr with hr | hr | hr <;> simp [hr]), fun a b e => hm.2 a (b ++ [u]) (by
          rw [show us ++ Use.free :: (more ++ [u]) = (us ++ Use.free :: more) ++ [u] by simp, e]; simp)⟩
      obtain ⟨t, h1, h2⟩ := ih hm' (fun x hx => hadd x (by simp [hx]))
      obtain ⟨r, rfl⟩ := hadd u (by simp)
      obtain ⟨v, f⟩ := hm.1 r (by simp)
      have hl := hm.2 (us ++ Use.free :: (more ++ [.add r])) [] (by simp)
      have e : us ++ Use.free :: (more ++ [.add r]) = (us ++ Use.free :: more) ++ [.add r] := by simp
      rw [e, sinceInit_snoc] at hl ⊢
      simp only [List.length_append, List.length_singleton] at hl
      have ha := foldlM_register [r] (((regRoute r0, true) :: t).map (·.1)) (by simpa using v)
      rw [if_pos ⟨by simpa using f, Or.inr (by simp only [List.length_map, List.length_cons, List.length_nil]; omega)⟩] at ha
      have h3 : router_add_route (((regRoute r0, true) :: t).map (·.1)) r.template.text r.handler r.filter =
          ok (((regRoute r0, true) :: t).map (·.1) ++ [regRoute r]) := by
        rw [List.foldlM_cons] at ha
        cases hc : router_add_route (((regRoute r0, true) :: t).map (·.1)) r.template.text r.handler r.filter with
        | ub f => rw [hc] at ha; cases ha
        | ok t' => rw [hc] at ha; simpa using ha
      refine ⟨t ++ [(regRoute r, false)], ?_, by simp; omega⟩
      rw [List.map_append, List.map_cons, List.map_nil, calls_snoc, h1]
      show call ((regRoute r0, true) :: t) (.add r.template.text r.handler r.filter) = _
      unfold call
      dsimp only
      rw [h3]
      simp
  obtain ⟨t, h1, -⟩ := key more hm hmore
  refine ⟨_, h1, ?_, ?_⟩
  · unfold request
    rw [fmtInto_ok (by simp; omega)]
    simp [readable]
  · rw [show us ++ Use.free :: (more ++ [.free]) = (us ++ Use.free :: more) ++ [.free] by simp, List.map_append, List.map_cons, List.map_nil,
      calls_snoc, h1]
    show call ((regRoute r0, true) :: t) .free = _
    unfold call
    dsimp only
    rw [if_pos (by simp)]

/-- One route. -/
def sampleReg : Registration := ⟨.const b!"GET:/x", some 0, none⟩

/-- A request for it. -/
def sampleX : St := { sampleSt with req := { sampleReq with path := b!"/x" } }

theorem sample_modest (us : List Use) (h : ∀ r, .add r ∈ us → r = sampleReg) (hl : us.length ≤ 128) : Modest us := by
  refine ⟨fun r hr => by rw [h r hr]; decide, fun a b e => ?_⟩
  have h1 := congrArg List.length e
  rw [List.length_append] at h1
  have h4 : (sinceInit a).length ≤ a.length := by
    unfold sinceInit
    refine le_trans (List.length_filterMap_le _ _) ?_
    rw [List.length_reverse]
    refine le_trans (List.takeWhile_sublist _).length_le ?_
    simp
  omega

/-- C91 is false: a request after `free_routing_table`. -/
theorem C91_refuted : ¬ C91_statement := by
  intro h
  have hm : Modest [.add sampleReg, .free] := sample_modest _ (by simp) (by simp)
  obtain ⟨t, h1, routes, h2, h3⟩ := h sampleEnv [.add sampleReg, .free] sampleX hm
  obtain ⟨t', k1, k2, -⟩ := C91_freed sampleEnv [.add sampleReg] [] sampleX hm (by
    intro a b e
    cases a with
    | nil => cases e
    | cons x a =>
      simp only [List.cons_append, List.cons.injEq] at e
      cases a <;> cases e.2) (by decide) (by simp) (by decide)
  have k1 : calls ([Use.add sampleReg, .free].map Use.call) = ok t' := k1
  rw [k1] at h1
  cases h1
  rw [k2] at h3
  have h4 : ∃ r, router_handle_request { sampleEnv with routes := routes } sampleX = ok r := by
    have h2 : register [sampleReg] = ok routes := h2
    rw [register_eq (by simp; decide)] at h2
    rw [h2.2.2]
    exact ⟨_, rfl⟩
  obtain ⟨r, h4⟩ := h4
  rw [h4] at h3
  cases h3

/-- A program that sets up its routes twice. -/
example : Modest [.init, .add sampleReg, .free, .init, .add sampleReg, .add sampleReg] ∧
    Orderly [.init, .add sampleReg, .free, .init, .add sampleReg, .add sampleReg] ∧
    sinceInit [.init, .add sampleReg, .free, .init, .add sampleReg, .add sampleReg] = [sampleReg, sampleReg] := by
  refine ⟨sample_modest _ (by simp) (by simp), ?_, by decide⟩
  intro a b e
  match a, e with
  | [], e => cases e
  | [_], e => simp at e
  | [_, _], e => simp at e; exact ⟨_, e.2.2.symm⟩
  | [_, _, _], e => simp at e
  | [_, _, _, _], e => simp at e
  | [_, _, _, _, _], e => simp at e
  | _ :: _ :: _ :: _ :: _ :: _ :: _, e =>
    have := congrArg List.length e
    simp at this

end Wayuu.RouterLife
