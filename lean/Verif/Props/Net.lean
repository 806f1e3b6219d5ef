import Verif.Model.Net
import Verif.Spec.Net
import Verif.Props.Isolation
/-
C98: clients that go away.
-/
namespace Wayuu.Net
open Wayuu C Spec

/-- A client that stays. -/
def stays : Nat → Send := fun _ => .whole

/-- The socket of a client is a blocking one. -/
def Blocks (net : Nat → Send) : Prop := BlockingSocket (net · = .whole) (net · = .gone)

/-- C98 in full: clients may go away whenever they want. If each request by itself is answered, then all of them are
served, each client has received the beginning of the answer it would get alone, and the log, the files, the closed sockets
and the table of connections are those of a server whose clients stay. -/
def C98_statement : Prop :=
  ∀ (p : Program) (env : Env) (js : List (Job × (Nat → Send))) (st : St) (rs : List Reply) (fs' : FS),
    UserBlind env → UserKeeps env → Ready st.live (js.map (·.1)) → Each env st.live st.fs (js.map (·.1)) rs fs' →
    (∀ j ∈ js, Blocks j.2) →
    ∃ st' got, clients p env js st = ok (.served st' got) ∧ Beginnings got (rs.map (·.sent)) ∧
      st'.log = st.log ++ rs.flatMap (·.log) ∧ st'.closed = st.closed ++ js.map (·.1.socket) ∧ st'.fs = fs' ∧ st'.live = st.live

theorem transmit_gone (ds : List (List Byte)) (net : Nat → Send) (h : ∀ i, net i = .gone) :
    transmit .standalone net ds = ([], true) := by
  induction ds generalizing net with
  | nil => rfl
  | cons d ds ih =>
    unfold transmit
    rw [h 0]
    exact ih _ (fun i => h (i + 1))

theorem transmit_blocks (ds : List (List Byte)) (net : Nat → Send) (h : Blocks net) :
    ∃ got, transmit .standalone net ds = (got, true) ∧ got <+: ds.flatten := by
  induction ds generalizing net with
  | nil => exact ⟨[], rfl, List.prefix_rfl⟩
  | cons d ds ih =>
    have h' : Blocks (fun i => net (i + 1)) := fun i => by
      rcases h (i + 1) with h | h
      · exact Or.inl h
      · exact Or.inr fun j hj => h (j + 1) (by omega)
    have hlast : net 0 ≠ .whole → transmit .standalone (fun i => net (i + 1)) ds = ([], true) := fun hw => by
      rcases h 0 with h | h
      · exact absurd h hw
      · exact transmit_gone ds _ (fun i => h (i + 1) (by omega))
    unfold transmit
    cases h0 : net 0 with
    | whole =>
      obtain ⟨got, e, hg⟩ := ih _ h'
      refine ⟨d ++ got, by simp only [e], ?_⟩
      rw [List.flatten_cons]
      exact (List.prefix_append_right_inj d).mpr hg
    | part n =>
      refine ⟨d.take n, by simp only [hlast (by rw [h0]; simp), List.append_nil], ?_⟩
      rw [List.flatten_cons]
      exact (List.take_prefix n d).trans (List.prefix_append _ _)
    | gone =>
      refine ⟨[], ?_, List.nil_prefix⟩
      show transmit .standalone (fun i => net (i + 1)) ds = _
      exact hlast (by rw [h0]; simp)

/-- One request, after others: what it gives alone. -/
theorem serve_alone {env : Env} (hb : UserBlind env) (hk : UserKeeps env) {st : St} {j : Job} {r : Reply} {fs1 : FS}
    (hr : Ready st.live [j]) (h : Alone env st.live st.fs j r fs1) :
    ∃ st1 ws, serve env st j = ok (st1, r.ev) ∧ st1.out = st.out ++ ws ∧ ws.flatten = r.sent ∧ st1.log = st.log ++ r.log ∧
      st1.closed = st.closed ++ [j.socket] ∧ st1.fs = fs1 ∧ st1.live = st.live := by
  obtain ⟨req, s1, h1, hs, hl, hf⟩ := h
  unfold serve at h1
  dsimp only at h1
  have k := accept_request_after ⟨st.out, st.log, st.closed⟩ (env := { env with junk := j.junk }) hb st.req h1
  obtain ⟨c1, -, -, c2⟩ := C51_closed { env with junk := j.junk } hk
    { req := req, input := j.input, out := [], log := [], fs := st.fs, live := st.live, closed := [] } s1 j.socket j.peer _ (hr.1 j (by simp)).1
    (hr.1 j (by simp)).2 h1
  have c2 := c2 hr.2
  simp only [List.nil_append] at c1 c2
  refine ⟨s1.after ⟨st.out, st.log, st.closed⟩, s1.out, ?_, rfl, hs, by rw [← hl]; rfl, by rw [← c1]; rfl, hf, c2⟩
  unfold serve
  refine Eq.trans ?_ k
  simp [St.after]

/-- C98, what holds: the standalone server. Missing: programs of one's own, see C98_killed. -/
theorem C98_partial (env : Env) (hb : UserBlind env) (hk : UserKeeps env) (js : List (Job × (Nat → Send))) :
    ∀ (st : St) (rs : List Reply) (fs' : FS), Ready st.live (js.map (·.1)) →
    Each env st.live st.fs (js.map (·.1)) rs fs' → (∀ j ∈ js, Blocks j.2) →
    ∃ st' got, clients .standalone env js st = ok (.served st' got) ∧ Beginnings got (rs.map (·.sent)) ∧
      st'.log = st.log ++ rs.flatMap (·.log) ∧ st'.closed = st.closed ++ js.map (·.1.socket) ∧ st'.fs = fs' ∧ st'.live = st.live := by
  induction js with
  | nil =>
    intro st rs fs' _ h _
    cases h
    exact ⟨st, [], rfl, .nil, by simp, by simp, rfl, rfl⟩
  | cons j js ih =>
    intro st rs fs' hr h hn
    rw [List.map_cons] at h
    cases h with
    | cons h1 h2 =>
      rename_i fs1 r rs
      obtain ⟨st1, ws, e, e1, e2, e3, e4, e5, e6⟩ := serve_alone hb hk
        ⟨fun x hx => hr.1 x (by rw [List.map_cons]; simp at hx; simp [hx]), hr.2⟩ h1
      obtain ⟨st', got, w1, w2, w3, w4, w5, w6⟩ := ih st1 rs fs'
        (by rw [e6]; exact ⟨fun x hx => hr.1 x (by rw [List.map_cons]; exact List.mem_cons_of_mem _ hx), hr.2⟩)
        (by rw [e6, e5]; exact h2) (fun x hx => hn x (List.mem_cons_of_mem _ hx))
      obtain ⟨g, eg, hp⟩ := transmit_blocks ws j.2 (hn j (by simp))
      refine ⟨st', g :: got, ?_, .cons (show g <+: r.sent by rw [← e2]; exact hp) w2, ?_, ?_, w5, by rw [w6, e6]⟩
      · unfold clients
        rw [e]
        simp only [ok_bind, e1, List.drop_left, eg, w1]
      · rw [w3, e3, List.flatMap_cons, List.append_assoc]
      · rw [w4, e4, List.map_cons, List.append_assoc]; rfl

/-- C98, what happens instead in a program of one's own: if a client is gone at any write of its answer, the process ends
and no client after it is served. -/
theorem C98_killed (env : Env) (j : Job) (net : Nat → Send) (js : List (Job × (Nat → Send))) (st st1 : St) (ev : List Event)
    (ws : List (List Byte)) (hs : serve env st j = ok (st1, ev)) (hw : st1.out = st.out ++ ws)
    (k : Nat) (hk : k < ws.length) (hg : net k = .gone) :
    ∃ got, clients .embedded env ((j, net) :: js) st = ok (.killed [got]) := by
  have key : ∀ (ws : List (List Byte)) (net : Nat → Send) (k : Nat), k < ws.length → net k = .gone →
      ∃ got, transmit .embedded net ws = (got, false) := by
    intro ws
    induction ws with
    | nil => intro net k hk; simp at hk
    | cons w ws ih =>
      intro net k hk hg
      unfold transmit
      cases h0 : net 0 with
      | gone => exact ⟨[], rfl⟩
      | whole =>
        cases k with
        | zero => rw [h0] at hg; cases hg
        | succ k =>
          obtain ⟨got, e⟩ := ih (fun i => net (i + 1)) k (by simpa using hk) hg
          exact ⟨_, by simp only [e]; rfl⟩
      | part n =>
        cases k with
        | zero => rw [h0] at hg; cases hg
        | succ k =>
          obtain ⟨got, e⟩ := ih (fun i => net (i + 1)) k (by simpa using hk) hg
          exact ⟨_, by simp only [e]; rfl⟩
  obtain ⟨got, e⟩ := key ws net k hk hg
  refine ⟨got, ?_⟩
  unfold clients
  rw [hs]
  simp only [ok_bind]
  rw [hw, List.drop_left, e]

/-- A client that goes away after the first write. -/
def leaves : Nat → Send := fun i => if i = 0 then .whole else .gone

theorem leaves_blocks : Blocks leaves := fun i => by
  by_cases h : i = 0
  · exact Or.inl (by simp [leaves, h])
  · exact Or.inr fun j hj => by simp only [leaves]; rw [if_neg (by omega)]

/-- A request for a plain file. -/
def plainJob : Job := ⟨7, b!"10.0.0.1", (docsSt b!"/a.txt").input, [65, 0]⟩

/-- The state it meets. -/
def plainSt : St := { docsSt b!"/a.txt" with input := [] }

theorem plain_out : (serve sampleEnv plainSt plainJob).bind (fun x => ok (decide (2 ≤ x.1.out.length), x.1.out.drop 3)) =
    ok (true, [b!"plain"]) := by decide +kernel

theorem plain_alone : ∃ r fs', Each sampleEnv plainSt.live plainSt.fs [plainJob] [r] fs' := by
  have := plain_out
  cases h : serve sampleEnv plainSt plainJob with
  | ub f => rw [h] at this; cases this
  | ok x => exact ⟨⟨x.1.sent, x.1.log, x.2⟩, x.1.fs, .cons ⟨sampleReq, x.1, h, rfl, rfl, rfl⟩ (.nil _)⟩

theorem plain_ready : Ready plainSt.live [plainJob] := by
  constructor <;> simp [plainSt, docsSt, plainJob]

theorem C98_refuted : ¬ C98_statement := by
  intro h
  obtain ⟨r, fs', he⟩ := plain_alone
  obtain ⟨st', got, hg, -⟩ := h .embedded sampleEnv [(plainJob, leaves)] plainSt [r] fs' sampleEnv_blind sampleEnv_keeps plain_ready he
    (by intro j hj; rw [List.mem_singleton.mp hj]; exact leaves_blocks)
  have := plain_out
  cases hs : serve sampleEnv plainSt plainJob with
  | ub f => rw [hs] at this; cases this
  | ok x =>
    rw [hs] at this
    simp only [C.bind, ok.injEq, Prod.mk.injEq, decide_eq_true_eq] at this
    obtain ⟨g, hk⟩ := C98_killed sampleEnv plainJob leaves [] plainSt x.1 x.2 x.1.out hs rfl 1 (by omega) rfl
    rw [hk] at hg
    cases hg

/-- C98_partial applies to a client that leaves. -/
example : ∃ st' got r, clients .standalone sampleEnv [(plainJob, leaves)] plainSt = ok (.served st' got) ∧ Beginnings got [r] :=
  let ⟨r, fs', h⟩ := plain_alone
  let ⟨st', got, h1, h2, _⟩ := C98_partial sampleEnv sampleEnv_blind sampleEnv_keeps [(plainJob, leaves)] plainSt [r] fs' plain_ready h
    (by intro j hj; rw [List.mem_singleton.mp hj]; exact leaves_blocks)
  ⟨st', got, r.sent, h1, h2⟩

/-- What the clients have received. -/
def Outcome.got : Outcome → List (List Byte)
  | .served _ g => g
  | .killed g => g

/-- Without blocking sockets (a timeout for sending, or a signal that arrives while the server sends; the code sets no
timeout and no handler) a client that stays may miss bytes in the middle: what a write does not take is not sent again. -/
theorem C98_short : ∃ net : Nat → Send, (∀ i, net i ≠ .gone) ∧
    ((clients .standalone sampleEnv [(plainJob, net)] plainSt).bind
      fun o => ok (o.got.map (·.take 24))) = ok [b!"HTTP/1.1HTTP/1.1 200 OK\r"] :=
  ⟨fun i => if i = 0 then .part 8 else .whole, fun i => by by_cases h : i = 0 <;> simp [h], by decide +kernel⟩

end Wayuu.Net
