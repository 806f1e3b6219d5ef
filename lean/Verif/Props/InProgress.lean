import Verif.Props.Overlap
import Verif.Props.Reuse
/-
C152: the table of connections while requests overlap, and what the limits are counted by.
-/
namespace Wayuu.Overlap
open Wayuu C
open Spec

/-- The request line asks for `url`. -/
def Wants (input url : Str) : Prop :=
  ∃ line rest method after, LineOf input 1023 line rest ∧ Words line method url after ∧ Supported method

/-- The request of client `k` was admitted in the course of the run, on descriptor `v` and for `url`. -/
def Admitted (x : World) (w0 : Sys) (evs : List Ev) (k v : Nat) (url : Str) : Prop :=
  ∃ evs1 w1 st buf, evs1 <+: evs ∧ Runs x w0 evs1 w1 ∧ w1.task k = some ⟨v, .listed st buf url⟩

/-- The request of client `k` is all done. -/
def Sys.through (w : Sys) (k : Nat) : Prop := ∃ v st ev, w.task k = some ⟨v, .gone st ev⟩

/-- No descriptor is handed out again before the request that had it has left the table. -/
def Unhurried (x : World) (w0 : Sys) (evs : List Ev) : Prop :=
  ∀ evs1 k v w1, evs1 ++ [.accept k v] <+: evs → Runs x w0 evs1 w1 → ∀ i pc, w1.task i = some ⟨v, pc⟩ → w1.through i

theorem Runs.unique {x : World} {w0 : Sys} : ∀ {evs : List Ev} {w w' : Sys}, Runs x w0 evs w → Runs x w0 evs w' → w = w' := by
  intro evs w w' h
  induction h generalizing w' with
  | nil =>
    intro h
    generalize he : ([] : List Ev) = es at h
    cases h with
    | nil => rfl
    | snoc _ _ => simp at he
  | @snoc w1 w2 e evs _ hs ih =>
    intro h
    generalize he : evs ++ [e] = es at h
    cases h with
    | nil => simp at he
    | @snoc w3 _ e' evs' h1 h2 =>
      obtain ⟨h3, h4⟩ := List.append_inj' he rfl
      have h4 := List.singleton_inj.mp h4
      rw [← h3] at h1
      rw [← h4, ← ih h1] at h2
      rw [hs] at h2
      cases h2
      rfl

/-- The request has not been put into the table yet. -/
def Pc.waiting : Pc → Bool
  | .arrived | .named _ _ _ => true
  | _ => false

/-- What is known of a request before it is put into the table. -/
def Told (x : World) (k v : Nat) : Pc → Prop
  | .named st _ url => st.req.socket = v ∧ st.req.IP = x.peer k ∧ Wants (x.input k) url
  | _ => True

/-- What one step does to the table. -/
theorem next_table {x : World} {w : Sys} {k v : Nat} {pc pc' : Pc} (hp : (x.peer k).length < 16) (hu : UserKeeps (x.env k))
    (ht : Told x k v pc) (h : next (x.env k) v (x.peer k) (w.first (x.input k)) w.fresh pc = some (ok pc')) :
    Told x k v pc' ∧
    ((∃ st st' buf url, pc = .named st buf url ∧ pc' = .listed st' buf url ∧ addSlot v (x.peer k) url w.live = some st'.live) ∨
     (∃ st st' ev, pc = .closed st ev ∧ pc' = .gone st' ev ∧ st'.live = connection_del st.req.socket w.live) ∨
     ((∀ st, pc'.st? = some st → st.live = w.live) ∧ (∀ st ev, pc' ≠ .gone st ev) ∧ (∀ st buf url, pc' ≠ .listed st buf url) ∧
      (pc'.waiting = true → pc.waiting = true) ∧ (∀ st ev, pc ≠ .gone st ev))) := by
  cases pc with
  | arrived =>
    have h := Option.some.inj h
    rcases readLine_ok hp h with ⟨line, rest, text, method, url, h1, rfl⟩ | ⟨st', rfl, -⟩
    · obtain ⟨after, hw, -⟩ := h1.words
      refine ⟨⟨rfl, rfl, line, rest, method, after, h1.hline, hw, h1.supported⟩, .inr (.inr ⟨?_, by simp, by simp, fun _ => rfl, by simp⟩)⟩
      rintro st ⟨rfl⟩
      rfl
    · refine ⟨trivial, .inr (.inr ⟨?_, by simp, by simp, fun _ => rfl, by simp⟩)⟩
      rintro st ⟨rfl⟩
      unfold readLine at h
      obtain ⟨_, -, h⟩ := bind_eq_ok.mp h
      obtain ⟨⟨buf, inp, rl, method, j⟩, -, h⟩ := bind_eq_ok.mp h
      obtain ⟨b, -, h⟩ := bind_eq_ok.mp h
      cases b with
      | false =>
        obtain ⟨s1, h1, h⟩ := bind_eq_ok.mp h
        cases h
        have k := send_http_status_keeps (show send_http_status _ _ _ _ = _ from h1)
        exact k.1
      | true =>
        obtain ⟨u, -, h⟩ := bind_eq_ok.mp h
        cases h
  | named st buf url =>
    obtain ⟨t1, t2, t3⟩ := ht
    have h := Option.some.inj h
    unfold enter at h
    obtain ⟨⟨added, live⟩, ha, h⟩ := bind_eq_ok.mp h
    rw [show (w.fresh st).req.socket = v from t1, show (w.fresh st).req.IP = x.peer k from t2] at ha
    rcases connection_add_ok ha with ⟨rfl, rfl⟩ | ⟨rfl, ha'⟩
    · obtain ⟨s1, h1, h⟩ := bind_eq_ok.mp h
      cases h
      refine ⟨trivial, .inr (.inr ⟨?_, by simp, by simp, fun _ => rfl, by simp⟩)⟩
      rintro st ⟨rfl⟩
      exact (send_http_status_keeps (show send_http_status _ _ _ _ = _ from h1)).1
    · cases h
      exact ⟨trivial, .inl ⟨st, _, buf, url, rfl, rfl, ha'⟩⟩
  | listed st buf url =>
    have h := Option.some.inj h
    unfold readHeaders at h
    obtain ⟨y, -, h⟩ := bind_eq_ok.mp h
    cases h
    refine ⟨trivial, .inr (.inr ⟨?_, by simp, by simp, (fun h => by cases h), by simp⟩)⟩
    rintro st ⟨rfl⟩
    rfl
  | parsed st url n b =>
    have h := Option.some.inj h
    unfold act at h
    obtain ⟨⟨s1, ev⟩, h1, h⟩ := bind_eq_ok.mp h
    cases h
    refine ⟨trivial, .inr (.inr ⟨?_, by simp, by simp, (fun h => by cases h), by simp⟩)⟩
    rintro st ⟨rfl⟩
    exact (dispatch_keeps hu h1).1
  | answered st ev =>
    cases h
    refine ⟨trivial, .inr (.inr ⟨?_, by simp, by simp, (fun h => by cases h), by simp⟩)⟩
    rintro st ⟨rfl⟩
    rfl
  | closed st ev =>
    cases h
    exact ⟨trivial, .inr (.inl ⟨st, _, ev, rfl, rfl, rfl⟩)⟩
  | gone st ev => cases h

theorem put_live {w : Sys} {k v : Nat} {pc : Pc} : (w.put k v pc).live = (pc.st?.map (·.live)).getD w.live := by
  unfold Sys.put
  dsimp only
  cases pc <;> rfl

theorem told {x : World} {w0 w : Sys} {evs : List Ev} (hp : ∀ k, (x.peer k).length < 16) (hu : ∀ k, UserKeeps (x.env k)) (h : Runs x w0 evs w)
    (h0 : ∀ k, w0.task k = none) : ∀ k v pc, w.task k = some ⟨v, pc⟩ → Told x k v pc := by
  induction h with
  | nil => intro k v pc h; rw [h0] at h; cases h
  | @snoc w w' e evs hr hstep ih =>
    intro k v pc hk
    cases e with
    | files fs => cases hstep; exact ih k v pc hk
    | accept i u =>
      unfold step at hstep
      dsimp only at hstep
      split at hstep
      · cases hstep
      cases hstep
      dsimp only at hk
      split at hk
      · cases hk; trivial
      · exact ih k v pc hk
    | step i =>
      unfold step at hstep
      dsimp only at hstep
      split at hstep
      · cases hstep
      rename_i t ht
      obtain ⟨u, pc0⟩ := t
      obtain ⟨c, hc, hstep⟩ := Option.map_eq_some_iff.mp hstep
      obtain ⟨pc1, rfl, hw⟩ := bind_eq_ok.mp hstep
      cases hw
      rw [put_task] at hk
      split at hk
      · rename_i e
        subst e
        cases hk
        exact (next_table (hp k) (hu k) (ih k u pc0 ht) hc).1
      · exact ih k v pc hk

/-! ### in any run -/

/-- The request is between the table's door and its end. -/
def Pc.within (pc : Pc) : Bool :=
  match pc with
  | .arrived | .named _ _ _ | .gone _ _ => false
  | _ => true

/-- C152, in any run: for no descriptor the table has more entries than there are requests on it that have got past the request line and
are not through. -/
theorem C152_bound (x : World) (m : Nat) (fs : FS) (evs : List Ev) (w : Sys) (hp : ∀ k, (x.peer k).length < 16) (hu : ∀ k, UserKeeps (x.env k))
    (h : Runs x (initial (List.replicate m ⟨0, [], []⟩) fs) evs w) (v : Nat) (hv : v ≠ 0) :
    ∃ ks : List Nat, ks.Nodup ∧ (∀ k ∈ ks, ∃ pc, w.task k = some ⟨v, pc⟩ ∧ pc.within = true) ∧
      w.live.countP (fun c => c.socket == v) ≤ ks.length := by
  generalize hw0 : initial (List.replicate m ⟨0, [], []⟩) fs = w0 at h
  have h0 : ∀ k, w0.task k = none := by subst hw0; exact fun _ => rfl
  have hd : ∀ {evs w}, Runs x w0 evs w → Descriptors w := fun h => by
    subst hw0
    exact descriptors hu h
      { own := fun k v pc h => by cases h
        nodup := List.nodup_nil
        open_iff := fun v => ⟨fun h => (by cases h), fun ⟨_, _, h, _⟩ => (by cases h)⟩
        one := fun k k' v pc pc' h => by cases h }
  induction h with
  | nil =>
    subst hw0
    refine ⟨[], .nil, by simp, ?_⟩
    have hv' : ¬ 0 = v := fun h => hv h.symm
    simp [initial, List.countP_replicate, hv']
  | @snoc w w' e evs hr hstep ih =>
    obtain ⟨ks, i1, i2, i3⟩ := ih
    cases e with
    | files fs => cases hstep; exact ⟨ks, i1, i2, i3⟩
    | accept i u =>
      unfold step at hstep
      dsimp only at hstep
      split at hstep
      · cases hstep
      rename_i hc
      simp only [not_or, not_not] at hc
      cases hstep
      refine ⟨ks, i1, fun k hk => ?_, i3⟩
      obtain ⟨pc, hk, hpc⟩ := i2 k hk
      refine ⟨pc, ?_, hpc⟩
      dsimp only
      rw [if_neg (by rintro rfl; rw [hc.1] at hk; cases hk)]
      exact hk
    | step i =>
      unfold step at hstep
      dsimp only at hstep
      split at hstep
      · cases hstep
      rename_i t ht
      obtain ⟨u, pc0⟩ := t
      obtain ⟨c, hc, hstep⟩ := Option.map_eq_some_iff.mp hstep
      obtain ⟨pc1, rfl, hw⟩ := bind_eq_ok.mp hstep
      cases hw
      have old : ∀ k ∈ ks, k ≠ i → ∃ pc, (w.put i u pc1).task k = some ⟨v, pc⟩ ∧ pc.within = true := fun k hk hne => by
        rw [put_task, if_neg hne]; exact i2 k hk
      rcases (next_table (hp i) (hu i) (told hp hu hr h0 i u pc0 ht) hc).2 with
        ⟨st, st', buf, url, rfl, rfl, h1⟩ | ⟨st, st', ev, rfl, rfl, h1⟩ | ⟨h1, h2, h3, h4, h5⟩
      · have hni : i ∉ ks := fun hi => by
          obtain ⟨pc, hk, hpc⟩ := i2 i hi
          rw [ht] at hk
          cases hk
          cases hpc
        have hcount : st'.live.countP (fun c => c.socket == v) = w.live.countP (fun c => c.socket == v) + if u = v then 1 else 0 := by
          obtain ⟨a, z, b, e1, hz, -, e2⟩ := addSlot_some h1
          have hv' : ¬ 0 = v := fun h => hv h.symm
          rw [e1, e2]
          simp only [List.countP_append, List.countP_cons, hz, beq_iff_eq, hv', if_false]
          omega
        rw [put_live]
        show ∃ ks : List Nat, _ ∧ _ ∧ st'.live.countP _ ≤ _
        rw [hcount]
        by_cases huv : u = v
        · subst huv
          refine ⟨i :: ks, List.nodup_cons.mpr ⟨hni, i1⟩, fun k hk => ?_, by simpa using i3⟩
          rcases List.mem_cons.mp hk with rfl | hk'
          · exact ⟨.listed st' buf url, by rw [put_task, if_pos rfl], rfl⟩
          · exact old k hk' (by rintro rfl; exact hni hk')
        · exact ⟨ks, i1, fun k hk => old k hk (by rintro rfl; exact hni hk), by rw [if_neg huv]; exact i3⟩
      · have hsock : st.req.socket = u := (((hd hr).own i u _ ht).2 st rfl).1
        rw [put_live]
        show ∃ ks : List Nat, _ ∧ _ ∧ st'.live.countP _ ≤ _
        rw [h1, hsock, Reuse.del_count u v hv]
        by_cases hi : i ∈ ks
        · obtain ⟨pc, hk, -⟩ := i2 i hi
          rw [ht] at hk
          cases hk
          refine ⟨ks.erase i, i1.erase i, fun k hk => ?_, ?_⟩
          · obtain ⟨hne, hk⟩ := i1.mem_erase_iff.mp hk
            exact old k hk hne
          · rw [if_pos rfl, List.length_erase_of_mem hi]
            omega
        · exact ⟨ks, i1, fun k hk => old k hk (by rintro rfl; exact hi hk), by omega⟩
      · have hl : (w.put i u pc1).live = w.live := by
          rw [put_live]
          cases hst : pc1.st? with
          | none => rfl
          | some st => exact h1 st hst
        rw [hl]
        refine ⟨ks, i1, fun k hk => ?_, i3⟩
        by_cases hki : k = i
        · subst hki
          obtain ⟨pc, hk, hpc⟩ := i2 k hk
          rw [ht] at hk
          cases hk
          refine ⟨pc1, by rw [put_task, if_pos rfl], ?_⟩
          cases pc1 with
          | arrived => have := h4 rfl; cases pc0 <;> first | (cases this; done) | (cases hpc; done)
          | named _ _ _ => have := h4 rfl; cases pc0 <;> first | (cases this; done) | (cases hpc; done)
          | gone st ev => exact absurd rfl (h2 st ev)
          | _ => rfl
        · exact old k hk hki

/-- C152: when no request is past its request line, all of the table is free again. -/
theorem C152_drained (x : World) (m : Nat) (fs : FS) (evs : List Ev) (w : Sys) (hp : ∀ k, (x.peer k).length < 16) (hu : ∀ k, UserKeeps (x.env k))
    (h : Runs x (initial (List.replicate m ⟨0, [], []⟩) fs) evs w) (hidle : ∀ k v pc, w.task k = some ⟨v, pc⟩ → pc.within = false) :
    ∀ c ∈ w.live, c.socket = 0 := by
  intro c hc
  by_contra hv
  obtain ⟨ks, -, h2, h3⟩ := C152_bound x m fs evs w hp hu h c.socket hv
  have h1 : 1 ≤ w.live.countP (fun d => d.socket == c.socket) := List.countP_pos_iff.mpr ⟨c, hc, by simp⟩
  cases ks with
  | nil => simp only [List.length_nil] at h3; omega
  | cons k ks =>
    obtain ⟨pc, hk, hpc⟩ := h2 k (by simp)
    rw [hidle k _ pc hk] at hpc
    cases hpc

/-! ### descriptors that are not handed out too soon -/

theorem admitted_snoc {x : World} {w0 w' : Sys} {evs : List Ev} {e : Ev} (hr' : Runs x w0 (evs ++ [e]) w') {k v : Nat} {url : Str} :
    Admitted x w0 (evs ++ [e]) k v url ↔ Admitted x w0 evs k v url ∨ ∃ st buf, w'.task k = some ⟨v, .listed st buf url⟩ := by
  constructor
  · rintro ⟨evs1, w1, st, buf, hp, hr, hk⟩
    rcases List.prefix_concat_iff.mp hp with rfl | hp
    · rw [Runs.unique hr hr'] at hk
      exact .inr ⟨st, buf, hk⟩
    · exact .inl ⟨evs1, w1, st, buf, hp, hr, hk⟩
  · rintro (⟨evs1, w1, st, buf, hp, hr, hk⟩ | ⟨st, buf, hk⟩)
    · exact ⟨evs1, w1, st, buf, hp.trans (List.prefix_append _ _), hr, hk⟩
    · exact ⟨_, w', st, buf, List.prefix_rfl, hr', hk⟩

theorem connection_del_in {v : Nat} {live : List Conn} (h : ∃ c ∈ live, c.socket = v) :
    ∃ a c b, live = a ++ c :: b ∧ c.socket = v ∧ connection_del v live = a ++ ⟨0, [], []⟩ :: b := by
  induction live with
  | nil => obtain ⟨c, h, -⟩ := h; cases h
  | cons c r ih =>
    by_cases hc : c.socket = v
    · exact ⟨[], c, r, rfl, hc, by simp [connection_del, hc]⟩
    · obtain ⟨a, d, b, h1, h2, h3⟩ := ih (by
        obtain ⟨d, hd, e⟩ := h
        rcases List.mem_cons.mp hd with rfl | hd
        · exact absurd e hc
        · exact ⟨d, hd, e⟩)
      exact ⟨c :: a, d, b, by rw [h1]; rfl, h2, by rw [connection_del, if_neg hc, h3]; rfl⟩

/-- The table at the end of a run, by the requests in progress. -/
structure Table (x : World) (w0 : Sys) (m : Nat) (evs : List Ev) (w : Sys) (ks : List Nat) (sock : Nat → Nat) (url : Nat → Str) : Prop where
  nodup : ks.Nodup
  mem : ∀ k, k ∈ ks ↔ (∃ v u, Admitted x w0 evs k v u) ∧ ¬ w.through k
  admitted : ∀ k ∈ ks, Admitted x w0 evs k (sock k) (url k)
  entries : (w.live.filter (fun c => c.socket != 0)).Perm (ks.map fun k => ⟨sock k, url k, x.peer k⟩)
  size : w.live.length = m

/-- What goes with it. -/
structure Apart (x : World) (w0 : Sys) (evs : List Ev) (w : Sys) : Prop where
  since : ∀ k v u, Admitted x w0 evs k v u → ∃ pc, w.task k = some ⟨v, pc⟩ ∧ pc.waiting = false
  one : ∀ k k' v pc pc', w.task k = some ⟨v, pc⟩ → w.task k' = some ⟨v, pc'⟩ → ¬ w.through k → ¬ w.through k' → k = k'
  wants : ∀ k v u, Admitted x w0 evs k v u → Wants (x.input k) u

theorem table_runs {x : World} {m : Nat} {fs : FS} {evs : List Ev} {w : Sys} (hp : ∀ k, (x.peer k).length < 16) (hu : ∀ k, UserKeeps (x.env k))
    (h : Runs x (initial (List.replicate m ⟨0, [], []⟩) fs) evs w) (hq : Unhurried x (initial (List.replicate m ⟨0, [], []⟩) fs) evs) :
    Apart x (initial (List.replicate m ⟨0, [], []⟩) fs) evs w ∧
    ∃ ks sock url, Table x (initial (List.replicate m ⟨0, [], []⟩) fs) m evs w ks sock url := by
  generalize hw0 : initial (List.replicate m ⟨0, [], []⟩) fs = w0 at h hq ⊢
  have h0 : ∀ k, w0.task k = none := by subst hw0; exact fun _ => rfl
  have hd : ∀ {evs w}, Runs x w0 evs w → Descriptors w := fun h => by
    subst hw0
    exact descriptors hu h
      { own := fun k v pc h => by cases h
        nodup := List.nodup_nil
        open_iff := fun v => ⟨fun h => (by cases h), fun ⟨_, _, h, _⟩ => (by cases h)⟩
        one := fun k k' v pc pc' h => by cases h }
  induction h with
  | nil =>
    have none : ∀ k v u, ¬ Admitted x w0 [] k v u := by
      rintro k v u ⟨evs1, w1, st, buf, hpre, hr, hk⟩
      rw [List.prefix_nil.mp hpre] at hr
      rw [Runs.unique hr (.nil _), h0] at hk
      cases hk
    refine ⟨⟨fun k v u h => absurd h (none k v u), (fun k k' v pc pc' h => by rw [h0] at h; cases h), fun k v u h => absurd h (none k v u)⟩,
      [], fun _ => 0, fun _ => [], .nil, fun k => ⟨fun h => (by cases h), fun ⟨⟨v, u, h⟩, _⟩ => absurd h (none k v u)⟩, (fun k h => by cases h), ?_, ?_⟩
    · subst hw0
      simp [initial]
    · subst hw0
      simp [initial]
  | @snoc w w' e evs hr hstep ih =>
    have hr' : Runs x w0 (evs ++ [e]) w' := .snoc hr hstep
    obtain ⟨⟨a1, a2, a3⟩, ks, sock, url, t1, t2, t3, t4, t5⟩ := ih (fun evs1 k v w1 hpre => hq evs1 k v w1 (hpre.trans (List.prefix_append _ _)))
    cases e with
    | files fs' =>
      cases hstep
      have hadm : ∀ k v u, Admitted x w0 (evs ++ [.files fs']) k v u ↔ Admitted x w0 evs k v u := fun k v u => by
        rw [admitted_snoc hr']
        exact ⟨fun h => h.elim id fun ⟨st, buf, h⟩ => ⟨evs, w, st, buf, List.prefix_rfl, hr, h⟩, .inl⟩
      refine ⟨⟨fun k v u h => a1 k v u ((hadm k v u).mp h), a2, fun k v u h => a3 k v u ((hadm k v u).mp h)⟩, ks, sock, url, t1, fun k => ?_,
        fun k hk => (hadm _ _ _).mpr (t3 k hk), t4, t5⟩
      simp only [hadm]
      exact t2 k
    | accept i u =>
      have hq' := hq evs i u w List.prefix_rfl hr
      have hs := hstep
      unfold step at hs
      dsimp only at hs
      split at hs
      · cases hs
      rename_i hc
      simp only [not_or, not_not] at hc
      cases hs
      generalize hw' : ({ w with fds := u :: w.fds, task := fun j => if j = i then some ⟨u, .arrived⟩ else w.task j } : Sys) = w' at hr'
      have htask : ∀ j, w'.task j = if j = i then some ⟨u, .arrived⟩ else w.task j := fun j => by rw [← hw']
      have hlive : w'.live = w.live := by rw [← hw']
      have hthr : ∀ k, w'.through k ↔ w.through k := fun k => by
        unfold Sys.through
        simp only [htask]
        by_cases hk : k = i
        · subst hk
          simp [hc.1]
        · simp [hk]
      have hadm : ∀ k v u', Admitted x w0 (evs ++ [.accept i u]) k v u' ↔ Admitted x w0 evs k v u' := fun k v u' => by
        rw [admitted_snoc hr']
        refine ⟨fun h => h.elim id fun ⟨st, buf, h⟩ => ?_, .inl⟩
        rw [htask] at h
        split at h
        · cases h
        · exact ⟨evs, w, st, buf, List.prefix_rfl, hr, h⟩
      refine ⟨⟨fun k v u' h => ?_, fun k k' v pc pc' hk hk' h1 h2 => ?_, fun k v u' h => a3 k v u' ((hadm k v u').mp h)⟩, ks, sock, url, t1, fun k => ?_,
        fun k hk => (hadm _ _ _).mpr (t3 k hk), by rw [hlive]; exact t4, by rw [hlive]; exact t5⟩
      · obtain ⟨pc, hk, hpc⟩ := a1 k v u' ((hadm k v u').mp h)
        refine ⟨pc, ?_, hpc⟩
        rw [htask, if_neg (by rintro rfl; rw [hc.1] at hk; cases hk)]
        exact hk
      · rw [hthr] at h1 h2
        rw [htask] at hk hk'
        split at hk
        · rename_i e1
          split at hk'
          · rename_i e2; rw [e1, e2]
          · cases hk
            exact absurd (hq' k' pc' hk') h2
        · split at hk'
          · cases hk'
            exact absurd (hq' k pc hk) h1
          · exact a2 k k' v pc pc' hk hk' h1 h2
      · simp only [hadm, hthr]
        exact t2 k
    | step i =>
      have hs := hstep
      unfold step at hs
      dsimp only at hs
      split at hs
      · cases hs
      rename_i t ht
      obtain ⟨u, pc0⟩ := t
      obtain ⟨c, hc, hs⟩ := Option.map_eq_some_iff.mp hs
      obtain ⟨pc1, rfl, hw⟩ := bind_eq_ok.mp hs
      cases hw
      have hng : ¬ w.through i := by
        rintro ⟨v, st, ev, hg⟩
        rw [ht] at hg
        cases hg
        cases hc
      have hold : ∀ k, k ≠ i → ((w.put i u pc1).through k ↔ w.through k) := fun k hk => by
        unfold Sys.through
        simp only [put_task, if_neg hk]
      have hadmO : ∀ k v u', k ≠ i → (Admitted x w0 (evs ++ [.step i]) k v u' ↔ Admitted x w0 evs k v u') := fun k v u' hk => by
        rw [admitted_snoc hr']
        refine ⟨fun h => h.elim id fun ⟨st, buf, h⟩ => ?_, .inl⟩
        rw [put_task, if_neg hk] at h
        exact ⟨evs, w, st, buf, List.prefix_rfl, hr, h⟩
      have hone : ∀ k k' v pc pc', (w.put i u pc1).task k = some ⟨v, pc⟩ → (w.put i u pc1).task k' = some ⟨v, pc'⟩ →
          ¬ (w.put i u pc1).through k → ¬ (w.put i u pc1).through k' → k = k' := by
        intro k k' v pc pc' hk hk' h1 h2
        by_cases e1 : k = i
        · by_cases e2 : k' = i
          · rw [e1, e2]
          · rw [hold k' e2] at h2
            rw [put_task, if_neg e2] at hk'
            rw [put_task, if_pos e1] at hk
            cases hk
            rw [e1]
            exact a2 i k' _ pc0 pc' ht hk' hng h2
        · rw [hold k e1] at h1
          rw [put_task, if_neg e1] at hk
          by_cases e2 : k' = i
          · rw [put_task, if_pos e2] at hk'
            cases hk'
            rw [e2]
            exact a2 k i _ pc pc0 hk ht h1 hng
          · rw [hold k' e2] at h2
            rw [put_task, if_neg e2] at hk'
            exact a2 k k' v pc pc' hk hk' h1 h2
      have htold := told hp hu hr h0 i u pc0 ht
      have hown := (hd hr).own i u pc0 ht
      rcases (next_table (hp i) (hu i) htold hc).2 with
        ⟨st, st', buf, ur, rfl, rfl, h1⟩ | ⟨st, st', ev, rfl, rfl, h1⟩ | ⟨h1, h2, h3, h4, h5⟩
      · -- admitted
        have hno : ∀ v u', ¬ Admitted x w0 evs i v u' := fun v u' h => by
          obtain ⟨pc, hk, hpc⟩ := a1 i v u' h
          rw [ht] at hk
          cases hk
          cases hpc
        have hadmI : ∀ v u', Admitted x w0 (evs ++ [.step i]) i v u' ↔ v = u ∧ u' = ur := fun v u' => by
          rw [admitted_snoc hr', put_task, if_pos rfl]
          constructor
          · rintro (h | ⟨_, _, h⟩)
            · exact absurd h (hno v u')
            · cases h; exact ⟨rfl, rfl⟩
          · rintro ⟨rfl, rfl⟩
            exact .inr ⟨st', buf, rfl⟩
        have hnt : ¬ (w.put i u (.listed st' buf ur)).through i := by
          rintro ⟨v, s2, ev, hg⟩
          rw [put_task, if_pos rfl] at hg
          cases hg
        have hni : i ∉ ks := fun hi => by
          obtain ⟨⟨v, u', h⟩, -⟩ := (t2 i).mp hi
          exact hno v u' h
        refine ⟨⟨fun k v u' h => ?_, hone, fun k v u' h => ?_⟩, i :: ks, fun k => if k = i then u else sock k, fun k => if k = i then ur else url k,
          List.nodup_cons.mpr ⟨hni, t1⟩, fun k => ?_, fun k hk => ?_, ?_, ?_⟩
        · by_cases hk : k = i
          · subst hk
            obtain ⟨rfl, rfl⟩ := (hadmI v u').mp h
            exact ⟨_, by rw [put_task, if_pos rfl], rfl⟩
          · rw [put_task, if_neg hk]
            exact a1 k v u' ((hadmO k v u' hk).mp h)
        · by_cases hk : k = i
          · subst hk
            obtain ⟨rfl, rfl⟩ := (hadmI v u').mp h
            exact htold.2.2
          · exact a3 k v u' ((hadmO k v u' hk).mp h)
        · by_cases hk : k = i
          · subst hk
            exact ⟨fun _ => ⟨⟨u, ur, (hadmI u ur).mpr ⟨rfl, rfl⟩⟩, hnt⟩, fun _ => by simp⟩
          · rw [List.mem_cons, or_iff_right hk, t2, hold k hk]
            simp only [hadmO k _ _ hk]
        · by_cases hki : k = i
          · subst hki
            rw [if_pos rfl, if_pos rfl]
            exact (hadmI u ur).mpr ⟨rfl, rfl⟩
          · rw [if_neg hki, if_neg hki, hadmO k _ _ hki]
            exact t3 k ((List.mem_cons.mp hk).resolve_left hki)
        · rw [put_live]
          show (st'.live.filter _).Perm _
          obtain ⟨a, z, b, e1, hz, -, e2⟩ := addSlot_some h1
          have hmap : (ks.map fun k => (⟨if k = i then u else sock k, if k = i then ur else url k, x.peer k⟩ : Conn)) =
              ks.map fun k => ⟨sock k, url k, x.peer k⟩ :=
            List.map_congr_left fun k hk => by
              have : ¬ k = i := by rintro rfl; exact hni hk
              rw [if_neg this, if_neg this]
          rw [List.map_cons, hmap, if_pos rfl, if_pos rfl]
          refine .trans ?_ (.cons _ t4)
          rw [e1, e2]
          have hu0 : (u != 0) = true := by simpa using hown.1
          have hz0 : (z.socket != 0) = false := by simpa using hz
          simp only [List.filter_append, List.filter_cons, hu0, hz0, if_true]
          exact List.perm_middle
        · rw [put_live]
          show st'.live.length = m
          obtain ⟨a, z, b, e1, hz, -, e2⟩ := addSlot_some h1
          rw [← t5, e1, e2]
          simp
      · -- leaving
        have hsock : st.req.socket = u := (hown.2 st rfl).1
        have hthr : (w.put i u (.gone st' ev)).through i := ⟨u, st', ev, by rw [put_task, if_pos rfl]⟩
        have hadmI : ∀ k v u', Admitted x w0 (evs ++ [.step i]) k v u' ↔ Admitted x w0 evs k v u' := fun k v u' => by
          by_cases hk : k = i
          · subst hk
            rw [admitted_snoc hr', put_task, if_pos rfl]
            exact ⟨fun h => h.elim id fun ⟨_, _, h⟩ => (by cases h), .inl⟩
          · exact hadmO k v u' hk
        have only : ∀ k ∈ ks, sock k = u → k = i := fun k hk e => by
          obtain ⟨pc, hk', -⟩ := a1 k _ _ (t3 k hk)
          rw [e] at hk'
          exact a2 k i u pc _ hk' ht ((t2 k).mp hk).2 hng
        have inTable : ∀ c ∈ w.live, c.socket = u → i ∈ ks ∧ c = ⟨sock i, url i, x.peer i⟩ := fun c hc e => by
          have : c ∈ w.live.filter (fun c => c.socket != 0) := List.mem_filter.mpr ⟨hc, by rw [e]; simpa using hown.1⟩
          obtain ⟨k, hk, rfl⟩ := List.mem_map.mp (t4.subset this)
          have := only k hk e
          subst this
          exact ⟨hk, rfl⟩
        refine ⟨⟨fun k v u' h => ?_, hone, fun k v u' h => a3 k v u' ((hadmI k v u').mp h)⟩, ks.erase i, sock, url, t1.erase i, fun k => ?_,
          fun k hk => (hadmI _ _ _).mpr (t3 k (List.mem_of_mem_erase hk)), ?_, ?_⟩
        · obtain ⟨pc, hk, hpc⟩ := a1 k v u' ((hadmI k v u').mp h)
          by_cases hki : k = i
          · subst hki
            rw [ht] at hk
            cases hk
            exact ⟨_, by rw [put_task, if_pos rfl], rfl⟩
          · exact ⟨pc, by rw [put_task, if_neg hki]; exact hk, hpc⟩
        · rw [t1.mem_erase_iff]
          by_cases hki : k = i
          · subst hki
            exact ⟨fun h => absurd rfl h.1, fun h => absurd hthr h.2⟩
          · rw [t2, hold k hki]
            simp only [hadmI]
            exact ⟨fun h => h.2, fun h => ⟨hki, h⟩⟩
        · rw [put_live]
          show (st'.live.filter _).Perm _
          rw [h1, hsock]
          by_cases hi : i ∈ ks
          · have hsi : sock i = u := by
              obtain ⟨pc, hk, -⟩ := a1 i _ _ (t3 i hi)
              rw [ht] at hk
              cases hk
              rfl
            have hin : ∃ c ∈ w.live, c.socket = u := by
              refine ⟨⟨sock i, url i, x.peer i⟩, ?_, hsi⟩
              have := t4.symm.subset (List.mem_map.mpr ⟨i, hi, rfl⟩)
              exact (List.mem_filter.mp this).1
            obtain ⟨a, c, b, e1, e2, e3⟩ := connection_del_in hin
            have hcc : c = ⟨sock i, url i, x.peer i⟩ := (inTable c (by rw [e1]; simp) e2).2
            rw [e3]
            rw [e1] at t4
            have hu0 : (c.socket != 0) = true := by rw [e2]; simpa using hown.1
            simp only [List.filter_append, List.filter_cons, hu0, if_true] at t4
            have k1 := (List.perm_middle.symm.trans t4).trans ((List.perm_cons_erase hi).map fun k => (⟨sock k, url k, x.peer k⟩ : Conn))
            rw [List.map_cons, ← hcc] at k1
            have k2 := k1.cons_inv
            simpa [List.filter_append, List.filter_cons] using k2
          · rw [Wayuu.connection_del_notin (fun c hc e => hi (inTable c hc e).1), List.erase_of_not_mem hi]
            exact t4
        · rw [put_live]
          show st'.live.length = m
          rw [h1, ← t5]
          rcases connection_del_cases st.req.socket w.live with h | ⟨a, c, b, e1, -, e2⟩
          · rw [h]
          · rw [e2, e1]; simp
      · -- anything else
        have hl : (w.put i u pc1).live = w.live := by
          rw [put_live]
          cases hst : pc1.st? with
          | none => rfl
          | some st => exact h1 st hst
        have hthr : ∀ k, (w.put i u pc1).through k ↔ w.through k := fun k => by
          by_cases hk : k = i
          · subst hk
            refine ⟨fun ⟨v, st, ev, hg⟩ => ?_, fun h => absurd h hng⟩
            rw [put_task, if_pos rfl] at hg
            cases hg
            exact absurd rfl (h2 st ev)
          · exact hold k hk
        have hadm : ∀ k v u', Admitted x w0 (evs ++ [.step i]) k v u' ↔ Admitted x w0 evs k v u' := fun k v u' => by
          by_cases hk : k = i
          · subst hk
            rw [admitted_snoc hr', put_task, if_pos rfl]
            refine ⟨fun h => h.elim id fun ⟨st, buf, h⟩ => ?_, .inl⟩
            cases h
            exact absurd rfl (h3 st buf u')
          · exact hadmO k v u' hk
        refine ⟨⟨fun k v u' h => ?_, hone, fun k v u' h => a3 k v u' ((hadm k v u').mp h)⟩, ks, sock, url, t1, fun k => ?_,
          fun k hk => (hadm _ _ _).mpr (t3 k hk), by rw [hl]; exact t4, by rw [hl]; exact t5⟩
        · obtain ⟨pc, hk, hpc⟩ := a1 k v u' ((hadm k v u').mp h)
          by_cases hki : k = i
          · subst hki
            rw [ht] at hk
            cases hk
            refine ⟨pc1, by rw [put_task, if_pos rfl], ?_⟩
            by_contra hwt
            rw [Bool.not_eq_false] at hwt
            rw [h4 hwt] at hpc
            cases hpc
          · exact ⟨pc, by rw [put_task, if_neg hki]; exact hk, hpc⟩
        · rw [hthr]
          simp only [hadm]
          exact t2 k

/-- C152: if no descriptor is handed out again before the request that had it has left the table, then the table has exactly one entry for
each request that was admitted and is not through: its descriptor, the URL of its request line and its address. -/
theorem C152_table (x : World) (m : Nat) (fs : FS) (evs : List Ev) (w : Sys) (hp : ∀ k, (x.peer k).length < 16) (hu : ∀ k, UserKeeps (x.env k))
    (h : Runs x (initial (List.replicate m ⟨0, [], []⟩) fs) evs w) (hq : Unhurried x (initial (List.replicate m ⟨0, [], []⟩) fs) evs) :
    ∃ (ks : List Nat) (sock : Nat → Nat) (url : Nat → Str), ks.Nodup ∧ (ks.map sock).Nodup ∧
      (∀ k, k ∈ ks ↔ (∃ v u, Admitted x (initial (List.replicate m ⟨0, [], []⟩) fs) evs k v u) ∧ ¬ w.through k) ∧
      (∀ k ∈ ks, (∃ pc, w.task k = some ⟨sock k, pc⟩) ∧ Wants (x.input k) (url k)) ∧
      (w.live.filter (fun c => c.socket != 0)).Perm (ks.map fun k => ⟨sock k, url k, x.peer k⟩) ∧ w.live.length = m := by
  obtain ⟨⟨a1, a2, a3⟩, ks, sock, url, t1, t2, t3, t4, t5⟩ := table_runs hp hu h hq
  have hk : ∀ k ∈ ks, ∃ pc, w.task k = some ⟨sock k, pc⟩ := fun k hk => by
    obtain ⟨pc, h, -⟩ := a1 k _ _ (t3 k hk)
    exact ⟨pc, h⟩
  refine ⟨ks, sock, url, t1, ?_, t2, fun k h => ⟨hk k h, a3 k _ _ (t3 k h)⟩, t4, t5⟩
  refine (List.nodup_map_iff_inj_on t1).mpr fun k hk1 k' hk2 e => ?_
  obtain ⟨pc, h1⟩ := hk k hk1
  obtain ⟨pc', h2⟩ := hk k' hk2
  rw [← e] at h2
  exact a2 k k' _ pc pc' h1 h2 ((t2 k).mp hk1).2 ((t2 k').mp hk2).2

open Classical in
/-- The limits, counted by requests: there is room for one more, and no rule for this URL is exceeded by the requests `ks`. -/
noncomputable def RoomFor (limits : List PathLimit) (m : Nat) (peer : Nat → Str) (ks : List Nat) (url : Nat → Str) (ip u : Str) : Prop :=
  ks.length < m ∧ ∀ l ∈ limits, CasePrefix l.path u →
    (ks.countP (fun k => decide (CasePrefix l.path (url k))) : Int) ≤ l.max_connections ∧
    (ks.countP (fun k => decide (CasePrefix l.path (url k) ∧ peer k = ip)) : Int) ≤ l.max_connections_per_ip

theorem admits_iff {limits : List PathLimit} {live : List Conn} {m : Nat} {ip u : Str} {ks : List Nat} {sock : Nat → Nat} {url peer : Nat → Str}
    (hm : live.length = m) (hs : (live.filter (fun c => c.socket != 0)).Perm (ks.map fun k => ⟨sock k, url k, peer k⟩)) :
    Admits limits live ip u ↔ RoomFor limits m peer ks url ip u := by
  classical
  have hpos : ∀ k ∈ ks, sock k ≠ 0 := fun k hk => by
    have := (List.mem_filter.mp (hs.symm.subset (List.mem_map.mpr ⟨k, hk, rfl⟩))).2
    simpa using this
  have hcount : ∀ p : Conn → Bool, (∀ c, p c = true → c.socket ≠ 0) → live.countP p = ks.countP (fun k => p ⟨sock k, url k, peer k⟩) := fun p hp => by
    have h1 : live.countP p = (live.filter (fun c => c.socket != 0)).countP p := by
      rw [List.countP_filter]
      refine List.countP_congr fun c _ => ?_
      have := hp c
      constructor
      · intro h; simp [h, this h]
      · intro h; simp at h; exact h.1
    rw [h1, hs.countP_eq, List.countP_map]
    rfl
  have hroom : (∃ c ∈ live, c.socket = 0) ↔ ks.length < m := by
    have : ks.length = (live.filter (fun c => c.socket != 0)).length := by rw [hs.length_eq, List.length_map]
    rw [this, ← hm, List.length_filter_lt_length_iff_exists]
    simp
  unfold Admits RoomFor
  rw [hroom]
  have e1 : ∀ l, liveUnder l live = ks.countP (fun k => decide (CasePrefix l (url k))) := fun l => by
    unfold liveUnder
    rw [hcount _ (fun c h => (of_decide_eq_true h).1)]
    exact List.countP_congr fun k hk => by simp [Under, hpos k hk]
  have e2 : ∀ l, liveUnderFrom l ip live = ks.countP (fun k => decide (CasePrefix l (url k) ∧ peer k = ip)) := fun l => by
    unfold liveUnderFrom
    rw [hcount _ (fun c h => (of_decide_eq_true h).1.1)]
    exact List.countP_congr fun k hk => by simp [Under, hpos k hk]
  simp only [e1, e2]

/-- The request of client `k` was refused for being one too many if and only if, when it asked, the requests that had been admitted and
were not through left no room for it. -/
def Counted (x : World) (m : Nat) (fs : FS) (evs : List Ev) (s : Str) (regs : List Registration) (k : Nat) (sent : List Byte) (ev : List Event) : Prop :=
  ∃ evs1 w1 fs2 o ks url, evs1 ++ [.step k] <+: evs ∧ Runs x (initial (List.replicate m ⟨0, [], []⟩) fs) evs1 w1 ∧
    (w1.asks k ∨ w1.reads k ∧ o = .status 400) ∧
    LeadsTo (x.env k).limits w1.live (x.peer k) regs (siteOf (x.env k) s) fs2 (x.input k) o ∧
    Whole.DoneAs (x.env k) fs2 ⟨k, sent, ev⟩ o ∧
    ks.Nodup ∧ (∀ i, i ∈ ks ↔ (∃ v u, Admitted x (initial (List.replicate m ⟨0, [], []⟩) fs) evs1 i v u) ∧ ¬ w1.through i) ∧
    (∀ i ∈ ks, Wants (x.input i) (url i)) ∧
    (o = .status 429 ↔ ∃ u, Wants (x.input k) u ∧ ¬ RoomFor (x.env k).limits m x.peer ks url (x.peer k) u)

/-- C152: it is the requests in progress that decide whether there is room for one more. -/
def C152_statement : Prop :=
  ∀ (x : World) (m : Nat) (fs : FS) (evs : List Ev) (w : Sys) (s : Nat → Str) (regs : List Registration), (∀ k, UserKeeps (x.env k)) →
    Runs x (initial (List.replicate m ⟨0, [], []⟩) fs) evs w → AlwaysSound x (initial (List.replicate m ⟨0, [], []⟩) fs) evs regs →
    (∀ k, Stack (x.env k) (s k) ∧ s k ≠ []) → ∀ k v st ev, w.task k = some ⟨v, .gone st ev⟩ → Counted x m fs evs (s k) regs k st.sent ev

/-- C152 for the runs in which no descriptor is handed out again before the request that had it has left the table. -/
theorem C152_partial (x : World) (m : Nat) (fs : FS) (evs : List Ev) (w : Sys) (s : Nat → Str) (regs : List Registration)
    (hu : ∀ k, UserKeeps (x.env k)) (h : Runs x (initial (List.replicate m ⟨0, [], []⟩) fs) evs w)
    (hq : Unhurried x (initial (List.replicate m ⟨0, [], []⟩) fs) evs) (hset : AlwaysSound x (initial (List.replicate m ⟨0, [], []⟩) fs) evs regs)
    (hs : ∀ k, Stack (x.env k) (s k) ∧ s k ≠ []) (k v : Nat) (st : St) (ev : List Event) (hk : w.task k = some ⟨v, .gone st ev⟩) :
    Counted x m fs evs (s k) regs k st.sent ev := by
  obtain ⟨evs1, w1, evs2, w2, o, h1, h2, h3, h4, -, h5, h6, h7, -, h8⟩ := C150_overlap x _ fs evs w s regs h hset hs k v st ev hk
  have hp : ∀ i, (x.peer i).length < 16 := (hset evs1 _ w1 h1 h2).peer
  have hq1 : Unhurried x (initial (List.replicate m ⟨0, [], []⟩) fs) evs1 := fun e i v w hpre => hq e i v w (hpre.trans ((List.prefix_append _ _).trans h1))
  obtain ⟨ks, sock, url, t1, -, t2, t3, t4, t5⟩ := C152_table x m fs evs1 w1 hp hu h2 hq1
  refine ⟨evs1, w1, w2.fs, o, ks, url, h1, h2, h5.elim (fun h => .inl h.1) fun h => h.elim (fun h => .inl h.1) .inr, h6, h8, t1, t2,
    fun i hi => (t3 i hi).2, ?_⟩
  simp only [← admits_iff t5 t4]
  obtain ⟨line, rest, lines, body, hd, method, u, after, pieces, g1, g2, g3, g4, g5, g6⟩ := h6
  have huniq : ∀ u', Wants (x.input k) u' → u' = u ∧ Supported method := by
    rintro u' ⟨line', rest', method', after', k1, k2, k3⟩
    obtain ⟨rfl, rfl⟩ := lineOf_unique g1 k1
    obtain ⟨rfl, rfl, rfl⟩ := words_unique g4 k2
    exact ⟨rfl, k3⟩
  constructor
  · rintro rfl
    by_cases hsup : Supported method
    · rw [if_neg (not_not.mpr hsup)] at g6
      refine ⟨u, ⟨line, rest, method, after, g1, g4, hsup⟩, fun hadm => ?_⟩
      rw [if_neg (not_not.mpr hadm)] at g6
      split at g6
      · split at g6
        · obtain ⟨name, -, g6⟩ := g6; cases g6
        · cases g6
      · obtain ⟨mount, path, -, -, ⟨-, g6⟩ | ⟨r, hh, stored, -, -, -, g6⟩⟩ := g6 <;> cases g6
    · rw [if_pos hsup] at g6
      cases g6
  · rintro ⟨u', hw, hna⟩
    obtain ⟨rfl, hsup⟩ := huniq u' hw
    rw [if_neg (not_not.mpr hsup), if_pos hna] at g6
    exact g6

/-! ### examples -/

theorem task_accepted {x : World} {w0 w : Sys} {evs : List Ev} (h0 : ∀ k, w0.task k = none) (h : Runs x w0 evs w) {k v : Nat} {pc : Pc}
    (hk : w.task k = some ⟨v, pc⟩) : .accept k v ∈ evs := by
  induction h generalizing k v pc with
  | nil => rw [h0] at hk; cases hk
  | @snoc w w' e evs hr hstep ih =>
    rw [List.mem_append]
    cases e with
    | files fs => cases hstep; exact .inl (ih hk)
    | accept i u =>
      unfold step at hstep
      dsimp only at hstep
      split at hstep
      · cases hstep
      cases hstep
      dsimp only at hk
      split at hk
      · rename_i e
        cases hk
        exact .inr (by rw [e]; simp)
      · exact .inl (ih hk)
    | step i =>
      unfold step at hstep
      dsimp only at hstep
      split at hstep
      · cases hstep
      rename_i t ht
      obtain ⟨c, hc, hstep⟩ := Option.map_eq_some_iff.mp hstep
      obtain ⟨pc1, rfl, hw⟩ := bind_eq_ok.mp hstep
      cases hw
      rw [put_task] at hk
      split at hk
      · rename_i e
        subst e
        cases hk
        exact .inl (ih ht)
      · exact .inl (ih hk)

/-- If every connection gets a descriptor of its own, nothing is handed out too soon. -/
theorem unhurried_of_distinct {x : World} {w0 : Sys} {evs : List Ev} (h0 : ∀ k, w0.task k = none)
    (hd : (evs.filterMap fun e => match e with | .accept _ v => some v | _ => none).Nodup) : Unhurried x w0 evs := by
  rintro evs1 k v w1 ⟨evs2, rfl⟩ hr i pc hi
  exfalso
  have := task_accepted h0 hr hi
  rw [List.append_assoc, List.filterMap_append, List.nodup_append] at hd
  refine hd.2.2 v (List.mem_filterMap.mpr ⟨_, this, rfl⟩) v ?_ rfl
  rw [List.filterMap_append]
  exact List.mem_append_left _ (by simp)

theorem run_of_runs {x : World} {w0 w : Sys} {evs : List Ev} (h : Runs x w0 evs w) : run x w0 evs = some w := by
  have app : ∀ (a : List Ev) (b : List Ev) (w : Sys), run x w (a ++ b) = (run x w a).bind fun w => run x w b := by
    intro a
    induction a with
    | nil => intro b w; rfl
    | cons e a ih =>
      intro b w
      simp only [List.cons_append, run]
      split
      · exact ih b _
      · rfl
  induction h with
  | nil => rfl
  | snoc _ hs ih =>
    rw [app, ih]
    simp only [Option.bind_some, run, hs]

/-- There is room for one request only: while that of client 0 is in progress, client 1 is turned away. -/
def squeezed : List Ev := [.accept 0 5, .step 0, .step 0, .accept 1 6, .step 1, .step 1, .step 1, .step 1]

example : ∃ w s, Runs pairWorld (initial (List.replicate 1 ⟨0, [], []⟩) docsFs) squeezed w ∧
    (∃ v st ev, w.task 1 = some ⟨v, .gone st ev⟩ ∧ b!"HTTP/1.1 429 " <+: st.sent) ∧ w.live.length = 1 ∧ (∃ c ∈ w.live, c.socket = 5) ∧
    (∀ k, (pairWorld.peer k).length < 16) ∧ (∀ k, UserKeeps (pairWorld.env k)) ∧
    Unhurried pairWorld (initial (List.replicate 1 ⟨0, [], []⟩) docsFs) squeezed ∧
    AlwaysSound pairWorld (initial (List.replicate 1 ⟨0, [], []⟩) docsFs) squeezed sampleRegs ∧ ∀ k, Stack (pairWorld.env k) s ∧ s ≠ [] := by
  have e : (run pairWorld (initial (List.replicate 1 ⟨0, [], []⟩) docsFs) squeezed).map (fun w =>
      ((outcome w 1).map (fun o => decide (b!"HTTP/1.1 429 " <+: o.1)), w.live.map (fun c => c.socket))) = some (some true, [5]) := by decide +kernel
  obtain ⟨w, hw, h⟩ := Option.map_eq_some_iff.mp e
  simp only [Prod.mk.injEq] at h
  obtain ⟨h1, h2⟩ := h
  obtain ⟨o, ho, h1⟩ := Option.map_eq_some_iff.mp h1
  obtain ⟨s, h3, h4⟩ := (soundEnv_setup [] []).stack
  have hp : ∀ k, (pairWorld.peer k).length < 16 := fun _ => show (b!"10.0.0.1").length < 16 by decide
  refine ⟨w, s, runs_of_run hw, ?_, by simpa using congrArg List.length h2, ?_, hp, fun _ => Whole.soundEnv_keeps,
    unhurried_of_distinct (fun _ => rfl) (by decide),
    always_sound ⟨fun k => Whole.setup_move (soundEnv_setup [] []) rfl, fun _ => show 18 ≤ soundEnv.evpMax by decide, hp⟩
      (fun _ => Whole.soundEnv_leaves) (by unfold Undisturbed squeezed; simp), fun _ => ⟨h3, h4⟩⟩
  · unfold outcome at ho
    split at ho
    · rename_i v st ev hk
      cases ho
      exact ⟨v, st, ev, hk, of_decide_eq_true h1⟩
    · cases ho
  · have : (5 : Nat) ∈ w.live.map (fun c => c.socket) := by rw [h2]; simp
    obtain ⟨c, hc, hs⟩ := List.mem_map.mp this
    exact ⟨c, hc, hs⟩

/-- All three requests are through: nobody is past its request line. -/
example : ∃ w, Runs pairWorld (initial (List.replicate 2 ⟨0, [], []⟩) docsFs) turns w ∧ (∀ k, (pairWorld.peer k).length < 16) ∧
    (∀ k, UserKeeps (pairWorld.env k)) ∧ w.through 0 ∧ ∀ k v pc, w.task k = some ⟨v, pc⟩ → pc.within = false := by
  obtain ⟨w, hr, h1, h2, h3⟩ := pair_runs
  have hgone : ∀ k, (outcome w k).isSome → w.through k := fun k h => by
    unfold outcome at h
    split at h
    · exact ⟨_, _, _, by assumption⟩
    · cases h
  have h2' : (outcome w 1).isSome := by
    cases ho : outcome w 1 with
    | none => rw [ho] at h2; cases h2
    | some _ => rfl
  refine ⟨w, hr, fun _ => show (b!"10.0.0.1").length < 16 by decide, fun _ => Whole.soundEnv_keeps, hgone 0 h1, fun k v pc hk => ?_⟩
  have := task_accepted (fun _ => rfl) hr hk
  have hk3 : k = 0 ∨ k = 1 ∨ k = 2 := by
    simp only [turns, List.mem_cons, Ev.accept.injEq, reduceCtorEq, List.not_mem_nil, or_false, false_or] at this
    omega
  have ht : w.through k := by
    rcases hk3 with rfl | rfl | rfl
    · exact hgone 0 h1
    · exact hgone 1 h2'
    · exact hgone 2 h3
  obtain ⟨v', st, ev, hg⟩ := ht
  rw [hk] at hg
  cases hg
  rfl

/-- A request with an unknown method is turned down; its descriptor is closed and handed out again, to client 0, whose request is admitted;
then the first request leaves the table, and takes the entry of client 0 with it. Client 1 finds the table empty. -/
def hasty : List Ev :=
  [.accept 2 5, .step 2, .step 2, .accept 0 5, .step 0, .step 0, .step 2, .accept 1 6, .step 1, .step 1, .step 1, .step 1, .step 1, .step 1]

/-- C152 is false of the code: with room for one request, two are in progress at the same time. -/
theorem C152_refuted : ¬ C152_statement := by
  intro hall
  have hp : ∀ k, (pairWorld.peer k).length < 16 := fun _ => show (b!"10.0.0.1").length < 16 by decide
  have hu : ∀ k, UserKeeps (pairWorld.env k) := fun _ => Whole.soundEnv_keeps
  obtain ⟨s, h3, h4⟩ := (soundEnv_setup [] []).stack
  have hset : AlwaysSound pairWorld (initial (List.replicate 1 ⟨0, [], []⟩) docsFs) hasty sampleRegs :=
    always_sound ⟨fun k => Whole.setup_move (soundEnv_setup [] []) rfl, fun _ => show 18 ≤ soundEnv.evpMax by decide, hp⟩
      (fun _ => Whole.soundEnv_leaves) (by unfold Undisturbed hasty; simp)
  -- what client 1 wants
  have hwant : ∃ u, Wants (pairWorld.input 1) u := by
    have e : (run pairWorld (initial (List.replicate 1 ⟨0, [], []⟩) docsFs) [.accept 1 6, .step 1, .step 1]).map (fun w =>
        match w.task 1 with | some ⟨_, .listed _ _ _⟩ => true | _ => false) = some true := by decide +kernel
    obtain ⟨w, hw, h⟩ := Option.map_eq_some_iff.mp e
    split at h
    · rename_i v st buf u hk
      have hr := runs_of_run hw
      have := (table_runs hp hu hr (unhurried_of_distinct (fun _ => rfl) (by decide))).1.wants 1 v u
        ⟨_, w, st, buf, List.prefix_rfl, hr, hk⟩
      exact ⟨u, this⟩
    · cases h
  obtain ⟨u, hwant⟩ := hwant
  -- client 0 is admitted
  have hadm : ∃ v u, Admitted pairWorld (initial (List.replicate 1 ⟨0, [], []⟩) docsFs) (hasty.take 6) 0 v u := by
    have e : (run pairWorld (initial (List.replicate 1 ⟨0, [], []⟩) docsFs) (hasty.take 6)).map (fun w =>
        match w.task 0 with | some ⟨_, .listed _ _ _⟩ => true | _ => false) = some true := by decide +kernel
    obtain ⟨w, hw, h⟩ := Option.map_eq_some_iff.mp e
    split at h
    · rename_i v st buf u hk
      exact ⟨v, u, _, w, st, buf, List.prefix_rfl, runs_of_run hw, hk⟩
    · cases h
  have e : (run pairWorld (initial (List.replicate 1 ⟨0, [], []⟩) docsFs) hasty).map (fun w =>
      (outcome w 1).map (fun o => o.2.length)) = some (some 2) := by decide +kernel
  obtain ⟨w, hw, h⟩ := Option.map_eq_some_iff.mp e
  obtain ⟨⟨sent, ev⟩, ho, h⟩ := Option.map_eq_some_iff.mp h
  unfold outcome at ho
  split at ho
  swap
  · cases ho
  rename_i v st ev' hk
  cases ho
  obtain ⟨evs1, w1, fs2, o, ks, url, g1, g2, -, -, g5, -, g7, -, g9⟩ :=
    hall pairWorld 1 docsFs hasty w (fun _ => s) sampleRegs hu (runs_of_run hw) hset (fun _ => ⟨h3, h4⟩) 1 v st ev hk
  -- it was not refused
  have hne : o ≠ .status 429 := by
    rintro rfl
    obtain ⟨g, -⟩ := g5
    have g : ev = [] := g
    rw [g] at h
    cases h
  have hroom : RoomFor (pairWorld.env 1).limits 1 pairWorld.peer ks url (pairWorld.peer 1) u := by
    by_contra hn
    exact hne (g9.mpr ⟨u, hwant, hn⟩)
  have hks : ks = [] := List.length_eq_zero_iff.mp (by have := hroom.1; omega)
  -- but client 0 is in progress
  have h0 : (0 : Nat) ∈ ks := by
    have hlen : evs1.length < 14 := by
      have := g1.length_le
      simp only [List.length_append, List.length_cons, List.length_nil] at this
      have h14 : hasty.length = 14 := rfl
      omega
    have e1 : evs1 = hasty.take evs1.length := List.prefix_iff_eq_take.mp ((List.prefix_append _ _).trans g1)
    have h8 : 8 ≤ evs1.length := by
      have e2 : hasty[evs1.length]? = some (.step 1) := by
        obtain ⟨r, hr⟩ := g1
        rw [← hr]
        simp
      have key : ∀ n < 14, (hasty[n]?.bind fun e => match e with | .step k => some k | _ => none) = some 1 → 8 ≤ n := by decide
      exact key _ hlen (by rw [e2]; rfl)
    refine (g7 0).mpr ⟨?_, ?_⟩
    · obtain ⟨v, u, evs2, w2, st2, buf2, k1, k2⟩ := hadm
      refine ⟨v, u, evs2, w2, st2, buf2, k1.trans ?_, k2⟩
      rw [e1]
      exact List.take_prefix_take_left (by omega)
    · rintro ⟨v, st2, ev2, hg⟩
      have key : ∀ n < 14, ((run pairWorld (initial (List.replicate 1 ⟨0, [], []⟩) docsFs) (hasty.take n)).map (fun w => (outcome w 0).isSome)).getD false = false := by
        decide +kernel
      have := key _ hlen
      rw [← e1] at this
      cases hrun : run pairWorld (initial (List.replicate 1 ⟨0, [], []⟩) docsFs) evs1 with
      | none =>
        have := run_of_runs g2
        rw [hrun] at this
        cases this
      | some w3 =>
        rw [hrun] at this
        rw [← Runs.unique (runs_of_run hrun) g2] at hg
        unfold outcome at this
        simp only [Option.map_some, Option.getD_some, hg] at this
        cases this
  rw [hks] at h0
  cases h0

end Wayuu.Overlap
