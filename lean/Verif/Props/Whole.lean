import Verif.Model.Whole
import Verif.Lemmas.Server
import Verif.Props.Files
import Verif.Props.Server
import Verif.Props.Queue
import Verif.Lemmas.Sample
/-
C138: who is on the deny list gets no service. C139: every client that is admitted is served once, with its own request.
-/
namespace Wayuu.Whole
open Wayuu C Spec Wayuu.Queue Wayuu.Server

/-! ### Runs of the whole and runs of its parts -/

/-- The file names of the address filter: not yet set, or set. -/
def PathsOf (root : Str) (p : AccessPaths) : Prop :=
  p = ⟨[], []⟩ ∨ p = ⟨root ++ b!"/etc/allow", root ++ b!"/etc/deny"⟩

theorem allowed_paths {fs : FS} {root ip : Str} {p p' : AccessPaths} {b : Bool} (hp : PathsOf root p)
    (h : allowed_address fs root p ip = ok (b, p')) : PathsOf root p' := by
  have key : ∀ q : AccessPaths, PathsOf root q → (do
      let denied ← find_in_file fs q.deny ip
      if denied then ok (false, q) else
      if !is_file fs q.allow then ok (true, q) else do
      let found ← find_in_file fs q.allow ip
      ok (found, q)) = ok (b, p') → PathsOf root p' := by
    intro q hq h
    obtain ⟨d, -, h⟩ := bind_eq_ok.mp h
    split at h
    · cases h; exact hq
    · split at h
      · cases h; exact hq
      · obtain ⟨f, -, h⟩ := bind_eq_ok.mp h
        cases h; exact hq
  unfold allowed_address at h
  simp only at h
  split at h
  · obtain ⟨a, ha, h⟩ := bind_eq_ok.mp h
    obtain ⟨d, hd, h⟩ := bind_eq_ok.mp h
    obtain ⟨q, hq, h⟩ := bind_eq_ok.mp h
    cases hq
    rw [(fmtInto_eq_ok.mp ha).2, (fmtInto_eq_ok.mp hd).2] at h
    exact key _ (Or.inr rfl) h
  · obtain ⟨q, hq, h⟩ := bind_eq_ok.mp h
    cases hq
    exact key _ hp h

/-- What a connection does to the process: either there is no descriptor left for it, or the filter decides. -/
theorem connect_ok {x : World} {w w' : WSt} {v : Nat} (h : step x w (.connect v) = some (ok w')) :
    w.srv.stopped = false ∧ w.srv.q.prod = .accept ∧
    ((x.limit ≤ w.srv.fds.length ∧ w' = { w with srv := { w.srv with stopped := true } }) ∨
     (¬ x.limit ≤ w.srv.fds.length ∧ v ∉ w.srv.fds ∧ ∃ b p,
       allowed_address w.st.fs x.root w.paths (x.client w.arrived).peer = ok (b, p) ∧
       w' = { w with
        srv := { w.srv with
          q := if b then { w.srv.q with prod := .lock v, accepted := w.srv.q.accepted ++ [v] }
            else { w.srv.q with closed := w.srv.q.closed ++ [v] },
          fds := if b then v :: w.srv.fds else w.srv.fds }
        paths := p, arrived := w.arrived + 1,
        admitted := if b then w.admitted ++ [w.arrived] else w.admitted,
        conn := fun u => if u = v then w.arrived else w.conn u })) := by
  simp only [step, connect] at h
  split at h
  · cases h
  · rename_i hs
    simp only [Bool.not_eq_true] at hs
    split at h
    · cases h
    · rename_i hp
      simp only [ne_eq, not_not] at hp
      refine ⟨hs, hp, ?_⟩
      split at h
      · rename_i hl
        simp only [Option.some.injEq, ok.injEq] at h
        exact Or.inl ⟨hl, h.symm⟩
      · rename_i hl
        split at h
        · cases h
        · rename_i hv
          simp only [Option.some.injEq] at h
          obtain ⟨⟨b, p⟩, ha, h⟩ := bind_eq_ok.mp h
          obtain ⟨srv, h1, h⟩ := bind_eq_ok.mp h
          refine Or.inr ⟨hl, hv, b, p, ha, ?_⟩
          simp only [ok.injEq] at h
          rw [← h]
          have : srv = { w.srv with
              q := if b then { w.srv.q with prod := .lock v, accepted := w.srv.q.accepted ++ [v] }
                else { w.srv.q with closed := w.srv.q.closed ++ [v] },
              fds := if b then v :: w.srv.fds else w.srv.fds } := by
            simp only [Server.step, hs, hp, hl, hv, Queue.step, Bool.false_eq_true, if_false] at h1
            cases b
            · simp only [Bool.false_eq_true, if_false, Option.map_some, Option.getD_some] at h1 ⊢
              cases h1
              rw [← hs, ← hp]
            · simp only [if_true, Option.map_some, Option.getD_some] at h1 ⊢
              cases h1
              rw [← hs]
          rw [this]

/-- What a step of a thread does. -/
theorem thread_ok {x : World} {w w' : WSt} {a : Act} (h : step x w (.thread a) = some (ok w')) :
    ∃ srv, Server.step x.limit w.srv (.thread a) = some (ok srv) ∧
      ((handles w a = none ∧ w' = { w with srv := srv }) ∨
       ∃ v st ev, handles w a = some v ∧
         accept_request (x.env (w.conn v)) { w.st with input := (x.client (w.conn v)).input, out := [] } v
           (x.client (w.conn v)).peer = ok (st, ev) ∧
         w' = { w with srv := srv, st := st, served := w.served ++ [⟨w.conn v, st.sent, ev⟩] }) := by
  simp only [step, Option.map_eq_some_iff] at h
  obtain ⟨c, hc, h⟩ := h
  obtain ⟨srv, hsrv, h2⟩ := bind_eq_ok.mp h
  subst hsrv
  refine ⟨srv, hc, ?_⟩
  clear h
  obtain ⟨w1, h1, h⟩ := bind_eq_ok.mp h2
  injection h with h
  cases hh : handles w a with
  | none =>
    rw [hh] at h1
    cases h1
    exact Or.inl ⟨rfl, h.symm⟩
  | some v =>
    rw [hh] at h1
    obtain ⟨⟨st, ev⟩, h2, h1⟩ := bind_eq_ok.mp h1
    simp only [ok.injEq] at h1
    subst h1
    exact Or.inr ⟨v, st, ev, rfl, h2, h.symm⟩

/-- `accept` fails. -/
theorem error_ok {x : World} {w w' : WSt} (h : step x w .error = some (ok w')) :
    w.srv.stopped = false ∧ Server.step x.limit w.srv .error = some (ok w'.srv) ∧
      w' = { w with srv := { w.srv with stopped := true } } := by
  simp only [step, Option.map_eq_some_iff] at h
  obtain ⟨c, hc, h⟩ := h
  obtain ⟨srv, hsrv, h2⟩ := bind_eq_ok.mp h
  subst hsrv
  injection h2 with h2
  subst h2
  have hs : w.srv.stopped = false := by
    cases hs : w.srv.stopped with
    | false => rfl
    | true => simp [Server.step, hs] at hc
  refine ⟨hs, hc, ?_⟩
  simp only [Server.step, hs, Bool.false_eq_true, if_false] at hc
  split at hc
  · cases hc; rfl
  · cases hc

/-- The process in a run of the whole goes through a run of Model/Server.lean. -/
theorem srv_runs {x : World} {cap n : Nat} {st : St} {evs : List Ev} {w : WSt} (h : Runs x (initial cap n st) evs w) :
    ∃ evs', Server.Runs x.limit (Server.initial cap n) evs' w.srv := by
  induction h with
  | nil => exact ⟨[], .nil _⟩
  | @snoc w1 w2 e evs' _ hst ih =>
    obtain ⟨es, ih⟩ := ih
    cases e with
    | connect v =>
      obtain ⟨hs, hp, ⟨hl, rfl⟩ | ⟨hl, hv, b, p, ha, rfl⟩⟩ := connect_ok hst
      · refine ⟨_, ih.snoc (e := .connect v true) ?_⟩
        simp [Server.step, hs, hp, hl]
      · refine ⟨_, ih.snoc (e := .connect v b) ?_⟩
        simp only [Server.step, hs, hp, hl, hv, Queue.step, Bool.false_eq_true, if_false]
        cases b <;> rfl
    | error =>
      exact ⟨_, ih.snoc (error_ok hst).2.1⟩
    | thread a =>
      obtain ⟨srv, h1, ⟨-, rfl⟩ | ⟨v, st', ev, -, -, rfl⟩⟩ := thread_ok hst
      · exact ⟨_, ih.snoc h1⟩
      · exact ⟨_, ih.snoc h1⟩
    | files fs =>
      cases hst
      exact ⟨es, ih⟩

theorem paths_runs {x : World} {w w' : WSt} {evs : List Ev} (h : Runs x w evs w') (hp : PathsOf x.root w.paths) :
    PathsOf x.root w'.paths := by
  induction h with
  | nil => exact hp
  | @snoc w1 w2 e evs' _ hst ih =>
    cases e with
    | connect v =>
      obtain ⟨hs, hp, ⟨hl, rfl⟩ | ⟨hl, hv, b, p, ha, rfl⟩⟩ := connect_ok hst
      · exact ih
      · exact allowed_paths ih ha
    | error => rw [(error_ok hst).2.2]; exact ih
    | thread a =>
      obtain ⟨srv, h1, ⟨-, rfl⟩ | ⟨v, st', ev, -, -, rfl⟩⟩ := thread_ok hst
      · exact ih
      · exact ih
    | files fs => cases hst; exact ih

/-- Every admitted connection has been served or has an open descriptor, never both; each is counted once. -/
structure Books (w : WSt) : Prop where
  each : w.admitted.Perm (w.served.map Done.conn ++ w.srv.fds.map w.conn)
  once : w.admitted.Nodup
  past : ∀ k ∈ w.admitted, k < w.arrived

theorem handles_eq {w : WSt} {a : Act} {v : Nat} : handles w a = some v ↔
    ∃ i, a = .worker i ∧ w.srv.q.workers[i]? = some (.handle v) := by
  cases a with
  | worker i =>
    simp only [handles, Act.worker.injEq, exists_eq_left']
    split
    · rename_i u hu
      rw [hu]
      simp
    · rename_i hu
      constructor
      · intro h; cases h
      · intro h; exact absurd h (hu v)
  | _ => simp [handles]

/-- The descriptors after a step of a thread. -/
theorem fds_thread {limit : Nat} {w : WSt} {a : Act} {srv : SSt} (h : Server.step limit w.srv (.thread a) = some (ok srv)) :
    srv.fds = match handles w a with
      | some v => w.srv.fds.erase v
      | none => w.srv.fds := by
  have hc : srv.fds = closes w.srv a := by
    unfold Server.step at h
    split at h
    · cases h
    · simp only at h
      split at h
      · cases h
      · simp only [Option.map_eq_some_iff] at h
        obtain ⟨c, hc, h⟩ := h
        obtain ⟨q, rfl, h⟩ := bind_eq_ok.mp h
        cases h
        rfl
  rw [hc]
  cases a with
  | worker i =>
    cases hx : w.srv.q.workers[i]? with
    | none => simp [closes, handles, hx]
    | some pc => cases pc <;> simp [closes, handles, hx]
  | _ => rfl

theorem books {x : World} {cap n : Nat} {st : St} {evs : List Ev} {w : WSt} (hc : 0 < cap)
    (h : Runs x (initial cap n st) evs w) : Books w := by
  induction h with
  | nil => exact ⟨.refl _, List.nodup_nil, by simp [initial]⟩
  | @snoc w1 w2 e evs' hr hst ih =>
    cases e with
    | connect v =>
      obtain ⟨hs, hp, ⟨hl, rfl⟩ | ⟨hl, hv, b, p, ha, rfl⟩⟩ := connect_ok hst
      · exact ⟨ih.each, ih.once, ih.past⟩
      · have hmap : w1.srv.fds.map (fun u => if u = v then w1.arrived else w1.conn u) = w1.srv.fds.map w1.conn := by
          apply List.map_congr_left
          intro u hu
          rw [if_neg (by rintro rfl; exact hv hu)]
        cases b with
        | false =>
          refine ⟨?_, ih.once, fun k hk => Nat.lt_succ_of_lt (ih.past k hk)⟩
          show w1.admitted.Perm (_ ++ w1.srv.fds.map _)
          rw [hmap]
          exact ih.each
        | true =>
          refine ⟨?_, ?_, ?_⟩
          · show (w1.admitted ++ [w1.arrived]).Perm (w1.served.map Done.conn ++
              (v :: w1.srv.fds).map (fun u => if u = v then w1.arrived else w1.conn u))
            rw [List.map_cons, hmap, if_pos rfl]
            exact (List.perm_append_singleton _ _).trans ((ih.each.cons _).trans List.perm_middle.symm)
          · show (w1.admitted ++ [w1.arrived]).Nodup
            rw [List.nodup_append]
            refine ⟨ih.once, by simp, ?_⟩
            intro a ha b hb
            rw [List.mem_singleton.mp hb]
            exact Nat.ne_of_lt (ih.past a ha)
          · intro k hk
            rcases List.mem_append.mp hk with hk | hk
            · exact Nat.lt_succ_of_lt (ih.past k hk)
            · rw [List.mem_singleton.mp hk]; exact Nat.lt_succ_self _
    | error => rw [(error_ok hst).2.2]; exact ⟨ih.each, ih.once, ih.past⟩
    | thread a =>
      obtain ⟨srv, h1, ⟨hh, rfl⟩ | ⟨v, st', ev, hh, -, rfl⟩⟩ := thread_ok hst
      · have hf := fds_thread h1
        rw [hh] at hf
        refine ⟨?_, ih.once, ih.past⟩
        show w1.admitted.Perm (_ ++ srv.fds.map _)
        rw [hf]
        exact ih.each
      · have hf := fds_thread h1
        rw [hh] at hf
        have hv : v ∈ w1.srv.fds := by
          obtain ⟨es, hes⟩ := srv_runs hr
          obtain ⟨i, -, hi⟩ := handles_eq.mp hh
          exact ((C79_apart x.limit cap n hc es _ hes).2.1 v).mpr (Or.inr (Or.inl (List.mem_of_getElem? hi)))
        refine ⟨?_, ih.once, ih.past⟩
        show w1.admitted.Perm (List.map Done.conn (w1.served ++ [_]) ++ srv.fds.map w1.conn)
        rw [hf, List.map_append, List.append_assoc]
        refine ih.each.trans (List.Perm.append_left _ ?_)
        exact (List.perm_cons_erase hv).map w1.conn
    | files fs => cases hst; exact ⟨ih.each, ih.once, ih.past⟩

/-- Connections that have not been admitted stay so. -/
theorem admitted_runs {x : World} {w w' : WSt} {evs : List Ev} (h : Runs x w evs w') :
    w.arrived ≤ w'.arrived ∧ ∀ k, k < w.arrived → (k ∈ w'.admitted ↔ k ∈ w.admitted) := by
  induction h with
  | nil => exact ⟨Nat.le_refl _, fun _ _ => Iff.rfl⟩
  | @snoc w1 w2 e evs' _ hst ih =>
    cases e with
    | connect v =>
      obtain ⟨hs, hp, ⟨hl, rfl⟩ | ⟨hl, hv, b, p, ha, rfl⟩⟩ := connect_ok hst
      · exact ih
      · refine ⟨Nat.le_succ_of_le ih.1, fun k hk => ?_⟩
        show k ∈ (if b then w1.admitted ++ [w1.arrived] else w1.admitted) ↔ _
        split
        · rw [List.mem_append, ih.2 k hk]
          have : k ≠ w1.arrived := by omega
          simp [this]
        · exact ih.2 k hk
    | error => rw [(error_ok hst).2.2]; exact ih
    | thread a =>
      obtain ⟨srv, h1, ⟨-, rfl⟩ | ⟨v, st', ev, -, -, rfl⟩⟩ := thread_ok hst
      · exact ih
      · exact ih
    | files fs => cases hst; exact ih

/-- After the process has ended nothing happens. -/
theorem stopped_runs {x : World} {w w' : WSt} {evs : List Ev} (h : Runs x w evs w') (hs : w.srv.stopped = true) :
    w'.srv = w.srv ∧ w'.served = w.served ∧ w'.admitted = w.admitted ∧ w'.arrived = w.arrived := by
  induction h with
  | nil => exact ⟨rfl, rfl, rfl, rfl⟩
  | @snoc w1 w2 e evs' _ hst ih =>
    obtain ⟨h1, h2, h3, h4⟩ := ih
    rw [← h1] at hs
    cases e with
    | connect v => rw [(connect_ok hst).1] at hs; cases hs
    | error => rw [(error_ok hst).1] at hs; cases hs
    | thread a =>
      obtain ⟨srv, h1, -⟩ := thread_ok hst
      simp [Server.step, hs] at h1
    | files fs => cases hst; exact ⟨h1, h2, h3, h4⟩

theorem Runs.trans {x : World} {w w' w'' : WSt} {evs evs' : List Ev} (h : Runs x w evs w') (h' : Runs x w' evs' w'') :
    Runs x w (evs ++ evs') w'' := by
  induction h' with
  | nil => simpa using h
  | snoc _ hst ih => rw [← List.append_assoc]; exact ih.snoc hst

/-! ### C138 -/

/-- C138 as claimed: a client whose address is a line of the deny file when it connects gets no service. -/
def C138_statement : Prop :=
  ∀ (x : World) (cap n : Nat) (st : St) (evs evs' : List Ev) (w w' w'' : WSt) (v : Nat) (content : Str),
    0 < cap → x.root.length ≤ 255 → Runs x (initial cap n st) evs w →
    w.st.fs.lookup (x.root ++ b!"/etc/deny") = some (.file content) → NulFree content →
    (x.client w.arrived).peer ≠ [] → LineIn (x.client w.arrived).peer content →
    step x w (.connect v) = some (ok w') → Runs x w' evs' w'' →
    w'.srv.fds = w.srv.fds ∧ ∀ d ∈ w''.served, d.conn ≠ w.arrived

/-- The filter turns the client away: nothing is opened, nothing is queued, and the connection is never served. -/
theorem turned_away {x : World} {cap n : Nat} {st : St} {evs evs' : List Ev} {w w' w'' : WSt} {v : Nat} (hc : 0 < cap)
    (h : Runs x (initial cap n st) evs w) (hs : step x w (.connect v) = some (ok w')) (h' : Runs x w' evs' w'')
    (hf : ∀ b p, allowed_address w.st.fs x.root w.paths (x.client w.arrived).peer = ok (b, p) → b = false) :
    w'.srv.fds = w.srv.fds ∧ w'.st = w.st ∧ ∀ d ∈ w''.served, d.conn ≠ w.arrived := by
  have hb := books hc ((h.snoc hs).trans h')
  have hw := books hc h
  obtain ⟨-, -, ⟨hl, rfl⟩ | ⟨hl, hv, b, p, ha, rfl⟩⟩ := connect_ok hs
  · refine ⟨rfl, rfl, fun d hd he => ?_⟩
    obtain ⟨-, h2, -, -⟩ := stopped_runs h' rfl
    rw [h2] at hd
    have : d.conn ∈ w.admitted := hw.each.mem_iff.mpr (by
      rw [List.mem_append]; exact Or.inl (List.mem_map_of_mem hd))
    have := hw.past _ this
    omega
  · have := hf b p ha
    subst this
    refine ⟨rfl, rfl, fun d hd he => ?_⟩
    have h1 : d.conn ∈ w''.admitted := hb.each.mem_iff.mpr (by
      rw [List.mem_append]; exact Or.inl (List.mem_map_of_mem hd))
    have h2 := ((admitted_runs h').2 d.conn (by rw [he]; exact Nat.lt_succ_self _)).mp h1
    have := hw.past _ h2
    omega

/-- C138, what holds: it is so if the deny file can be read and has less than 8192 bytes (and the address stands before the first NUL
byte). Then the connection is accepted without harm and closed at once, nothing else changes, and nothing the other clients or the
administrator do afterwards makes the server handle it; the descriptor is free for the next client, who is not confused with this one.
Missing: a deny file that is there but cannot be read (say by the user the service runs as) is taken for an empty one. -/
theorem C138_partial (x : World) (cap n : Nat) (st : St) (evs : List Ev) (w : WSt) (v : Nat) (content text : Str)
    (hc : 0 < cap) (hroot : x.root.length ≤ 255) (h : Runs x (initial cap n st) evs w)
    (hd : w.st.fs.openRead (x.root ++ b!"/etc/deny") = some content) (hl : content.length < 8192) (ht : BeforeNul content text)
    (hin : LineIn (x.client w.arrived).peer text) :
    (w.srv.stopped = false → w.srv.q.prod = .accept → w.srv.fds.length < x.limit → v ∉ w.srv.fds →
      ∃ w', step x w (.connect v) = some (ok w') ∧ w'.srv.stopped = false ∧ w'.srv.q.prod = .accept ∧
        w'.arrived = w.arrived + 1) ∧
    ∀ w' w'' evs', step x w (.connect v) = some (ok w') → Runs x w' evs' w'' →
      w'.srv.fds = w.srv.fds ∧ w'.st = w.st ∧ ∀ d ∈ w''.served, d.conn ≠ w.arrived := by
  have hp := paths_runs h (Or.inl rfl)
  obtain ⟨r, hr, -, hr2, -⟩ := C47_partial w.st.fs (x.root ++ b!"/etc/deny") (x.client w.arrived).peer content text hd hl ht
    hin.choose_spec.choose_spec.2.2.2
  rw [hr2 hin] at hr
  have key : allowed_address w.st.fs x.root w.paths (x.client w.arrived).peer =
      ok (false, ⟨x.root ++ b!"/etc/allow", x.root ++ b!"/etc/deny"⟩) := by
    unfold allowed_address
    rcases hp with hp | hp
    · rw [hp]
      simp only [List.length_nil, if_true]
      rw [fmtInto_ok (by simp [ROOT_PATH_MAX]; omega), fmtInto_ok (by simp [ROOT_PATH_MAX]; omega)]
      simp only [ok_bind, hr, if_true]
    · rw [hp]
      simp only [ok_bind, hr, if_true]
      split
      · rename_i h0; simp at h0
      · rfl
  refine ⟨fun h1 h2 h3 h4 => ?_, fun w' w'' evs' hs h' => turned_away hc h hs h' (fun b p e => by
    rw [key] at e; cases e; rfl)⟩
  have h3' : ¬ x.limit ≤ w.srv.fds.length := by omega
  simp only [step, connect, h1, h2, h3', h4, key, Bool.false_eq_true, if_false, ok_bind, ne_eq, not_true]
  simp only [Server.step, Queue.step, h1, h2, h3', h4, Bool.false_eq_true, if_false, Option.map_some, Option.getD_some]
  exact ⟨_, rfl, rfl, rfl, rfl⟩

/-- C138, the allow file: if it is a regular file and the address occurs in none of its lines (or it cannot be read at all) the client is
turned away likewise. -/
theorem C138_allow (x : World) (cap n : Nat) (st : St) (evs evs' : List Ev) (w w' w'' : WSt) (v : Nat) (content : Str)
    (hc : 0 < cap) (h : Runs x (initial cap n st) evs w) (hroot : x.root.length ≤ 255)
    (ha : w.st.fs.lookup (x.root ++ b!"/etc/allow") = some (.file content))
    (h1 : ∀ c, w.st.fs.openRead (x.root ++ b!"/etc/deny") = some c → c.length < 8192)
    (h2 : ∀ c, w.st.fs.openRead (x.root ++ b!"/etc/allow") = some c → c.length < 8192)
    (hip : (x.client w.arrived).peer ≠ [])
    (hno : ¬ Listed w.st.fs (x.root ++ b!"/etc/allow") (x.client w.arrived).peer)
    (hs : step x w (.connect v) = some (ok w')) (h' : Runs x w' evs' w'') :
    w'.srv.fds = w.srv.fds ∧ w'.st = w.st ∧ ∀ d ∈ w''.served, d.conn ≠ w.arrived := by
  refine turned_away hc h hs h' (fun b p e => ?_)
  obtain ⟨r, hr, hr2⟩ := C46_filter w.st.fs x.root (x.client w.arrived).peer w.paths hroot hip (paths_runs h (Or.inl rfl)) h1 h2
  rw [hr] at e
  cases e
  cases b with
  | false => rfl
  | true =>
    obtain ⟨-, h3 | h3⟩ := hr2.mp rfl
    · exact absurd ha (h3 content)
    · exact absurd h3 hno

/-- The events one after the other, computed. -/
def run (x : World) (w : WSt) : List Ev → Option WSt
  | [] => some w
  | e :: evs =>
    match step x w e with
    | some (ok w') => run x w' evs
    | _ => none

theorem runs_of_run {x : World} : ∀ {evs : List Ev} {w w' : WSt}, run x w evs = some w' → Runs x w evs w' := by
  intro evs
  induction evs with
  | nil => intro w w' h; cases h; exact .nil _
  | cons e evs ih =>
    intro w w' h
    simp only [run] at h
    split at h
    · rename_i w1 h1
      exact Runs.trans (.snoc (.nil _) h1) (ih h)
    · cases h

/-- The statements of the accepting thread that put the connection just accepted into the queue; nobody waits. -/
def putEvs : List Ev := List.replicate 7 (.thread .prod) ++ [.thread (.signal none)]

/-- Worker 0, at its lock, takes a connection from the queue and handles it. -/
def takeEvs : List Ev := List.replicate 9 (.thread (.worker 0))

/-- Every client asks for the start page and has the address 10.0.0.1. -/
def sampleWorld : World :=
  { limit := 100, root := b!"/r", client := fun _ => ⟨b!"10.0.0.1", b!"GET / HTTP/1.1\r\n\r\n"⟩, env := fun _ => sampleEnv }

/-- The deny file lists the address but the server is not permitted to read it. -/
def lockedDeny : St := { sampleSt with
  live := [⟨0, [], []⟩], fs := { denyFs b!"10.0.0.1\n" with canRead := fun p => p ≠ [b!"r", b!"etc", b!"deny"] } }

/-- C138 is false of the code: the deny file is there and lists the address, but cannot be read; the client is served. -/
theorem C138_refuted : ¬ C138_statement := by
  intro h
  have e : (run sampleWorld (initial 2 1 lockedDeny) (.connect 5 :: (putEvs ++ takeEvs))).map (fun w => w.served.map Done.conn) =
      some [0] := by decide +kernel
  obtain ⟨w'', hw, hs⟩ := Option.map_eq_some_iff.mp e
  simp only [run] at hw
  split at hw
  · rename_i w1 h1
    have := (h sampleWorld 2 1 lockedDeny [] _ _ w1 w'' 5 b!"10.0.0.1\n" (by decide) (by decide) (.nil _) (by decide +kernel)
      (by decide) (by decide) ⟨[], b!"\n", by decide, by decide, by decide, by decide⟩ h1 (runs_of_run hw)).2
    cases hd : w''.served with
    | nil => rw [hd] at hs; cases hs
    | cons d ds =>
      rw [hd] at hs this
      simp only [List.map_cons, List.cons.injEq] at hs
      exact this d (by simp) hs.1
  · cases hw

/-! ### C139 -/

/-- The connection was handled by `accept_request`, which read what this client sent and nothing else, and was told this client's
address. -/
def OwnRequest (x : World) (d : Done) : Prop :=
  ∃ (v : Nat) (st st' : St), st.input = (x.client d.conn).input ∧ st.out = [] ∧
    accept_request (x.env d.conn) st v (x.client d.conn).peer = ok (st', d.events) ∧ d.sent = st'.sent

/-- C139 as claimed: when the server has come to rest, every client that was admitted has been served, once, with its own request. -/
def C139_statement : Prop :=
  ∀ (x : World) (cap n : Nat) (st : St) (evs : List Ev) (w : WSt), 0 < cap → 0 < n → Runs x (initial cap n st) evs w →
    w.srv.stopped = false → Quiet w.srv.q → (w.served.map Done.conn).Perm w.admitted ∧ ∀ d ∈ w.served, OwnRequest x d

theorem own {x : World} {cap n : Nat} {st : St} {evs : List Ev} {w : WSt} (h : Runs x (initial cap n st) evs w) :
    ∀ d ∈ w.served, OwnRequest x d := by
  induction h with
  | nil => intro d hd; cases hd
  | @snoc w1 w2 e evs' hr hst ih =>
    cases e with
    | connect v =>
      obtain ⟨hs, hp, ⟨hl, rfl⟩ | ⟨hl, hv, b, p, ha, rfl⟩⟩ := connect_ok hst
      · exact ih
      · exact ih
    | error => rw [(error_ok hst).2.2]; exact ih
    | thread a =>
      obtain ⟨srv, h1, ⟨-, rfl⟩ | ⟨v, st', ev, -, h2, rfl⟩⟩ := thread_ok hst
      · exact ih
      · intro d hd
        rcases List.mem_append.mp hd with hd | hd
        · exact ih d hd
        · rw [List.mem_singleton.mp hd]
          exact ⟨v, _, st', rfl, rfl, h2, rfl⟩
    | files fs => cases hst; exact ih

/-- C139, what holds: at any time, whatever the schedule, each connection is served at most once, only those admitted are, and each with
its own client's input and address, although descriptors are used again; those not yet served have a descriptor that is open, each its
own. When the server has come to rest and has turned nobody away, all have been served. Missing: who finds the queue full is not. -/
theorem C139_partial (x : World) (cap n : Nat) (st : St) (evs : List Ev) (w : WSt) (hc : 0 < cap)
    (h : Runs x (initial cap n st) evs w) :
    (w.served.map Done.conn).Nodup ∧ (∀ d ∈ w.served, d.conn ∈ w.admitted ∧ OwnRequest x d) ∧
    (∀ k ∈ w.admitted, k ∉ w.served.map Done.conn → ∃ v ∈ w.srv.fds, w.conn v = k ∧ ∀ u ∈ w.srv.fds, w.conn u = k → u = v) ∧
    (0 < n → w.srv.stopped = false → Quiet w.srv.q → w.srv.q.dropped = [] → (w.served.map Done.conn).Perm w.admitted) := by
  have hb := books hc h
  have hn : (w.served.map Done.conn ++ w.srv.fds.map w.conn).Nodup := hb.each.nodup_iff.mp hb.once
  rw [List.nodup_append] at hn
  refine ⟨hn.1, fun d hd => ⟨hb.each.mem_iff.mpr (List.mem_append_left _ (List.mem_map_of_mem hd)), own h d hd⟩, ?_, ?_⟩
  · intro k hk hns
    rcases List.mem_append.mp (hb.each.mem_iff.mp hk) with hk | hk
    · exact absurd hk hns
    · obtain ⟨v, hv, rfl⟩ := List.mem_map.mp hk
      exact ⟨v, hv, rfl, fun u hu he => List.inj_on_of_nodup_map hn.2.1 hu hv he⟩
  · intro hn0 ha hq hd
    obtain ⟨es, hes⟩ := srv_runs h
    obtain ⟨h1, h2⟩ := C53_drained cap n hc hn0 w.srv.q (reach_of_runs hes) hq
    obtain ⟨-, hp, -⟩ := stuck_shape (S := []) hc hes ha (fun a hu => by
      simp only [Server.step, ha, Bool.false_eq_true, if_false]
      split
      · rfl
      · rw [hq a hu.1]; rfl)
    have hf := (C78_lost x.limit cap n hc es w.srv hes (by
      have := congrArg List.length h1
      rw [List.length_map] at this
      unfold pending
      rw [this, List.drop_length]) (fun v hv => by cases h2 _ hv) hp)
    rw [hd] at hf
    have hb2 := hb.each
    rw [hf.eq_nil, List.map_nil, List.append_nil] at hb2
    exact hb2.symm

/-- Three clients, one worker, a queue for two: the third is turned away. -/
def crowd : List Ev :=
  .connect 5 :: putEvs ++ .connect 6 :: putEvs ++ .connect 7 :: (List.replicate 3 (.thread .prod) ++ [.thread (.signal none)]) ++
    List.replicate 20 (.thread (.worker 0))

/-- The sample world without a deny file. -/
def openSt : St := { sampleSt with live := [⟨0, [], []⟩] }

theorem quiet_of {s : QSt} (h1 : s.prod = .accept) (h2 : s.workers = [.waiting]) : Quiet s := by
  intro a ha
  cases a with
  | accept v b => exact ha.elim
  | spurious i => exact ha.elim
  | prod => simp [Queue.step, prodStep, h1]
  | signal w => simp [Queue.step, h1]
  | worker i => cases i <;> simp [Queue.step, workerStep, h2]

/-- C139 is false of the code: the third client is admitted, finds the queue full, and is never served. -/
theorem C139_refuted : ¬ C139_statement := by
  intro h
  have e : (run sampleWorld (initial 2 1 openSt) crowd).map (fun w => (w.srv.q.prod, w.srv.q.workers, w.srv.stopped,
      w.served.map Done.conn, w.admitted)) = some (.accept, [.waiting], false, [0, 1], [0, 1, 2]) := by decide +kernel
  obtain ⟨w, hw, hs⟩ := Option.map_eq_some_iff.mp e
  simp only [Prod.mk.injEq] at hs
  have := (h sampleWorld 2 1 openSt crowd w (by decide) (by decide) (runs_of_run hw) hs.2.2.1 (quiet_of hs.1 hs.2.1)).1
  rw [hs.2.2.2.1, hs.2.2.2.2] at this
  have := this.length_eq
  simp at this

/-- The first client is served, the descriptor is used again, and both have been served when the server has come to rest. -/
def twice : List Ev := .connect 5 :: putEvs ++ takeEvs ++ .connect 5 :: putEvs ++ List.replicate 11 (.thread (.worker 0))

example : ∃ w, Runs sampleWorld (initial 2 1 openSt) twice w ∧ w.admitted = [0, 1] ∧ w.srv.fds = [] ∧
    (w.served.map Done.conn).Perm w.admitted := by
  have e : (run sampleWorld (initial 2 1 openSt) twice).map (fun w => ((w.srv.q.prod, w.srv.q.workers, w.srv.stopped),
      w.srv.q.dropped, w.admitted, w.srv.fds)) = some ((.accept, [.waiting], false), [], [0, 1], []) := by decide +kernel
  obtain ⟨w, hw, hs⟩ := Option.map_eq_some_iff.mp e
  simp only [Prod.mk.injEq] at hs
  obtain ⟨⟨h1, h2, h3⟩, h4, h5, h6⟩ := hs
  exact ⟨w, runs_of_run hw, h5, h6, (C139_partial sampleWorld 2 1 openSt twice w (by decide) (runs_of_run hw)).2.2.2 (by decide) h3
    (quiet_of h1 h2) h4⟩

/-- The deny file lists the address and can be read. -/
def denySt : St := { openSt with fs := denyFs b!"10.0.0.9\n10.0.0.1\n" }

/-- `C138_partial` in the initial state, and after a first client that was turned away. -/
example : (∃ w', step sampleWorld (initial 2 1 denySt) (.connect 5) = some (ok w') ∧ w'.srv.stopped = false ∧
      w'.srv.q.prod = .accept ∧ w'.arrived = 1) :=
  (C138_partial sampleWorld 2 1 denySt [] (initial 2 1 denySt) 5 b!"10.0.0.9\n10.0.0.1\n" b!"10.0.0.9\n10.0.0.1\n" (by decide)
    (by decide) (.nil _) (by decide +kernel) (by decide) ⟨by decide, Or.inl rfl⟩
    ⟨b!"10.0.0.9\n", b!"\n", by decide, by decide, by decide, by decide⟩).1 rfl rfl (by decide)
      (by simp [initial, Server.initial])

example : ∃ w, Runs sampleWorld (initial 2 1 denySt) [.connect 5] w ∧ w.arrived = 1 ∧ w.srv.q.closed = [5] ∧
    ∀ w' w'' evs', step sampleWorld w (.connect 5) = some (ok w') → Runs sampleWorld w' evs' w'' →
      w'.srv.fds = w.srv.fds ∧ w'.st = w.st ∧ ∀ d ∈ w''.served, d.conn ≠ w.arrived := by
  have e : (run sampleWorld (initial 2 1 denySt) [.connect 5]).map (fun w => (w.arrived, w.srv.q.closed,
      w.st.fs.openRead (sampleWorld.root ++ b!"/etc/deny"))) =
      some (1, [5], some b!"10.0.0.9\n10.0.0.1\n") := by decide +kernel
  obtain ⟨w, hw, hs⟩ := Option.map_eq_some_iff.mp e
  simp only [Prod.mk.injEq] at hs
  exact ⟨w, runs_of_run hw, hs.1, hs.2.1, (C138_partial sampleWorld 2 1 denySt [.connect 5] w 5 b!"10.0.0.9\n10.0.0.1\n"
    b!"10.0.0.9\n10.0.0.1\n" (by decide) (by decide) (runs_of_run hw) hs.2.2 (by decide) ⟨by decide, Or.inl rfl⟩
    ⟨b!"10.0.0.9\n", b!"\n", rfl, by decide, by decide, by show _ ∉ b!"10.0.0.1"; decide⟩).2⟩

/-- An allow file that lists another address. -/
def allowFs (content : Str) : FS :=
  ⟨fun p => if p = [b!"r"] ∨ p = [b!"r", b!"etc"] then some .dir else
    if p = [b!"r", b!"etc", b!"allow"] then some (.file content) else none, fun _ => true, fun _ => true⟩

/-- The sample world with that allow file. -/
def allowSt : St := { openSt with fs := allowFs b!"10.0.0.2\n" }

/-- `C138_allow` in the initial state. -/
example : ∃ w', step sampleWorld (initial 2 1 allowSt) (.connect 5) = some (ok w') ∧
    w'.srv.fds = [] ∧ ∀ w'' evs', Runs sampleWorld w' evs' w'' → ∀ d ∈ w''.served, d.conn ≠ 0 := by
  have e : (run sampleWorld (initial 2 1 allowSt) [.connect 5]).map (fun w => w.srv.fds) = some [] := by decide +kernel
  have h0 : allowSt.fs.openRead (b!"/r" ++ b!"/etc/allow") = some b!"10.0.0.2\n" := by decide +kernel
  have h2 : ∀ c, allowSt.fs.openRead (b!"/r" ++ b!"/etc/allow") = some c → c.length < 8192 := by
    intro c hc; rw [h0] at hc; cases hc; decide
  have hno : ¬ Listed allowSt.fs (b!"/r" ++ b!"/etc/allow") b!"10.0.0.1" := by
    intro hl
    obtain ⟨r, h3, h4⟩ := find_listed (ip := b!"10.0.0.1") (by decide) h2
    rw [h4.mpr hl] at h3
    have : find_in_file allowSt.fs (b!"/r" ++ b!"/etc/allow") b!"10.0.0.1" = ok false := by decide +kernel
    rw [this] at h3
    cases h3
  have h1 : allowSt.fs.openRead (b!"/r" ++ b!"/etc/deny") = none := by decide +kernel
  obtain ⟨w, hw, hs⟩ := Option.map_eq_some_iff.mp e
  simp only [run] at hw
  split at hw
  · rename_i w1 h3
    cases hw
    refine ⟨w, h3, hs, fun w'' evs' h' => ?_⟩
    exact (C138_allow sampleWorld 2 1 allowSt [] evs' _ w w'' 5 b!"10.0.0.2\n" (by decide) (.nil _) (by decide) (by decide +kernel)
      (fun c hc => by
        have hc : allowSt.fs.openRead (b!"/r" ++ b!"/etc/deny") = some c := hc
        rw [h1] at hc; cases hc) h2 (by decide) hno h3 h').2.2
  · cases hw

end Wayuu.Whole
