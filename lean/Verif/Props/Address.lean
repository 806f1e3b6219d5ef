import Verif.Model.Address
import Verif.Lemmas.Response
import Verif.Props.Limits
/-
Property C74 (ws.c:368-382, 438-456, 474-478, 780-781): limits per address tell addresses apart.
-/
namespace Wayuu
namespace Spec

/-- Dotted-quad notation. -/
def DottedQuad (text : List Byte) (x : Addr) : Prop :=
  ∃ p q r s, text = p ++ 46 :: q ++ 46 :: r ++ 46 :: s ∧ NatText p x.a.toNat ∧ NatText q x.b.toNat ∧
    NatText r x.c.toNat ∧ NatText s x.d.toNat

open Classical in
/-- How many live connections under a path come from an address. -/
noncomputable def liveUnderAddr (path : List Byte) (x : Addr) (live : List Conn) : Nat :=
  live.countP (fun c => decide (Under path c ∧ DottedQuad c.IP x))

end Spec
open C Spec

theorem decimal_concat (s : List Byte) (c : Byte) : decimal (s ++ [c]) = 10 * decimal s + (c.toNat - 48) := by
  simp [decimal]

theorem decimal_pos {s : List Byte} (hd : ∀ c ∈ s, digit c) (hne : s ≠ []) (hz : s.head? ≠ some 48) : 0 < decimal s := by
  induction s using List.reverseRecOn with
  | nil => exact absurd rfl hne
  | append_singleton s c ih =>
    rw [decimal_concat]
    by_cases h : s = []
    · subst h
      have h1 := hd c (by simp)
      have h2 : c ≠ 48 := by simpa using hz
      have h3 : c.toNat ≠ 48 := fun e => h2 (UInt8.toNat_inj.mp e)
      unfold digit at h1
      omega
    · have := ih (fun x hx => hd x (by simp [hx])) h (by
        cases s with
        | nil => exact absurd rfl h
        | cons x s => simpa using hz)
      omega

/-- A number has one decimal notation. -/
theorem natText_inj {s t : List Byte} {n : Nat} (hs : NatText s n) (ht : NatText t n) : s = t := by
  induction n using Nat.strongRecOn generalizing s t with
  | ind n ih =>
    obtain ⟨s1, s2, s3, s4⟩ := hs
    obtain ⟨t1, t2, t3, t4⟩ := ht
    obtain ⟨s', c, rfl⟩ : ∃ s' c, s = s' ++ [c] := ⟨s.dropLast, s.getLast s1, (List.dropLast_append_getLast s1).symm⟩
    obtain ⟨t', d, rfl⟩ : ∃ t' d, t = t' ++ [d] := ⟨t.dropLast, t.getLast t1, (List.dropLast_append_getLast t1).symm⟩
    rw [decimal_concat] at s4 t4
    have hc := s2 c (by simp)
    have hd := t2 d (by simp)
    unfold digit at hc hd
    have e1 : c = d := UInt8.toNat_inj.mp (by omega)
    have e2 : decimal s' = decimal t' := by omega
    subst e1
    have head : ∀ u : List Byte, u ≠ [] → (1 < (u ++ [c]).length → (u ++ [c]).head? ≠ some 48) → u.head? ≠ some 48 := by
      intro u hu h
      cases u with
      | nil => exact absurd rfl hu
      | cons x u => simpa using h (by simp)
    by_cases h1 : s' = []
    · by_cases h2 : t' = []
      · rw [h1, h2]
      · have := decimal_pos (fun x hx => t2 x (by simp [hx])) h2 (head _ h2 t3)
        rw [h1] at e2
        simp [decimal] at e2 this
        omega
    · have h3 := decimal_pos (fun x hx => s2 x (by simp [hx])) h1 (head _ h1 s3)
      by_cases h2 : t' = []
      · rw [h2] at e2
        simp [decimal] at e2 h3
        omega
      · rw [ih (decimal s') (by omega) ⟨h1, fun x hx => s2 x (by simp [hx]), fun _ => head _ h1 s3, rfl⟩
          ⟨h2, fun x hx => t2 x (by simp [hx]), fun _ => head _ h2 t3, e2.symm⟩]

theorem natText_no_dot {s : List Byte} {n : Nat} (h : NatText s n) : (46 : Byte) ∉ s := by
  intro hc
  have := h.2.1 46 hc
  revert this
  unfold digit
  decide

theorem dot_split {p p' r r' : List Byte} (hp : (46 : Byte) ∉ p) (hp' : (46 : Byte) ∉ p')
    (h : p ++ 46 :: r = p' ++ 46 :: r') : p = p' ∧ r = r' := by
  induction p generalizing p' with
  | nil =>
    cases p' with
    | nil => simpa using h
    | cons x p' => simp at h; simp [h.1] at hp'
  | cons x p ih =>
    cases p' with
    | nil => simp at h; simp [h.1] at hp
    | cons y p' =>
      simp only [List.cons_append, List.cons.injEq] at h
      have := ih (fun hc => hp (by simp [hc])) (fun hc => hp' (by simp [hc])) h.2
      exact ⟨by rw [h.1, this.1], this.2⟩

theorem inet_ntoa_quad (x : Addr) : DottedQuad (inet_ntoa x) x :=
  ⟨_, _, _, _, by simp [inet_ntoa], fmtNat_text _, fmtNat_text _, fmtNat_text _, fmtNat_text _⟩

/-! ### C74 -/

/-- C74, texts: the text of an address is its dotted-quad notation, has at most 15 bytes and fits both arrays it
is copied to. -/
theorem C74_fits (x : Addr) :
    clientAddress 16 x = ok (inet_ntoa x) ∧ clientAddress 24 x = ok (inet_ntoa x) ∧ DottedQuad (inet_ntoa x) x ∧
      (inet_ntoa x).length ≤ 15 ∧ NulFree (inet_ntoa x) := by
  have hl : (inet_ntoa x).length ≤ 15 := by
    have h1 := fmtNat_length x.a.toNat 2 (by have := x.a.toNat_lt; omega)
    have h2 := fmtNat_length x.b.toNat 2 (by have := x.b.toNat_lt; omega)
    have h3 := fmtNat_length x.c.toNat 2 (by have := x.c.toNat_lt; omega)
    have h4 := fmtNat_length x.d.toNat 2 (by have := x.d.toNat_lt; omega)
    simp [inet_ntoa]
    omega
  refine ⟨fmtInto_ok (by omega), fmtInto_ok (by omega), inet_ntoa_quad x, hl, ?_⟩
  simp [inet_ntoa, fmtNat_nulFree]

example : clientAddress 16 ⟨255, 255, 255, 255⟩ = ok b!"255.255.255.255" := (C74_fits ⟨255, 255, 255, 255⟩).1

/-- C74, uniqueness: a text is the notation of at most one address, and an address has one notation. -/
theorem C74_unique (s t : Str) (x y : Addr) (hs : DottedQuad s x) (ht : DottedQuad t y) : s = t ↔ x = y := by
  obtain ⟨p, q, r, u, rfl, h1, h2, h3, h4⟩ := hs
  obtain ⟨p', q', r', u', rfl, h1', h2', h3', h4'⟩ := ht
  constructor
  · intro h
    simp only [List.append_assoc, List.cons_append] at h
    obtain ⟨e1, h⟩ := dot_split (natText_no_dot h1) (natText_no_dot h1') h
    obtain ⟨e2, h⟩ := dot_split (natText_no_dot h2) (natText_no_dot h2') h
    obtain ⟨e3, e4⟩ := dot_split (natText_no_dot h3) (natText_no_dot h3') h
    subst e1 e2 e3 e4
    have f1 := UInt8.toNat_inj.mp (natText_unique h1 h1')
    have f2 := UInt8.toNat_inj.mp (natText_unique h2 h2')
    have f3 := UInt8.toNat_inj.mp (natText_unique h3 h3')
    have f4 := UInt8.toNat_inj.mp (natText_unique h4 h4')
    cases x; cases y
    simp_all
  · rintro rfl
    rw [natText_inj h1 h1', natText_inj h2 h2', natText_inj h3 h3', natText_inj h4 h4']

example : ¬ DottedQuad b!"10.0.0.1" ⟨10, 0, 0, 2⟩ := by
  intro h
  have := (C74_unique _ _ _ _ (C74_fits ⟨10, 0, 0, 1⟩).2.2.1 h).mp (by decide)
  exact absurd this (by decide)

/-- C74: whether a client is admitted depends on its address only through the number of live connections from
that same address, for every table of connections; the address itself always fits. -/
theorem C74_decision (limits : List PathLimit) (live : List Conn) (socket : Nat) (x : Addr) (path : Str)
    (hlen : limits.length ≤ 64) (hne : ∀ l ∈ limits, l.path ≠ []) (hp : path.length < 512) :
    ∃ r live', connection_add limits live socket (inet_ntoa x) path = ok (r, live') ∧
      (r = true ↔ (∃ c ∈ live, c.socket = 0) ∧ ∀ l ∈ limits, CasePrefix l.path path →
        (liveUnder l.path live : Int) ≤ l.max_connections ∧ (liveUnderAddr l.path x live : Int) ≤ l.max_connections_per_ip) ∧
      (r = false → live' = live) ∧
      (r = true → ∃ a c b y, live = a ++ c :: b ∧ c.socket = 0 ∧ (∀ z ∈ a, z.socket ≠ 0) ∧
        live' = a ++ ⟨socket, path, y⟩ :: b ∧ DottedQuad y x) := by
  have hcount : ∀ p, liveUnderAddr p x live = liveUnderFrom p (inet_ntoa x) live := by
    intro p
    unfold liveUnderAddr liveUnderFrom
    apply List.countP_congr
    intro c _
    simp only [decide_eq_true_eq]
    constructor
    · rintro ⟨h1, h2⟩
      exact ⟨h1, (C74_unique _ _ x x h2 (inet_ntoa_quad x)).mpr rfl⟩
    · rintro ⟨h1, h2⟩
      exact ⟨h1, h2 ▸ inet_ntoa_quad x⟩
  obtain ⟨r, live', h1, h2, h3, h4⟩ := C49_decision limits live socket (inet_ntoa x) path hlen hne hp
    (by have := (C74_fits x).2.2.2.1; omega)
  refine ⟨r, live', h1, ?_, h3, ?_⟩
  · rw [h2]
    simp only [hcount]
  · intro hr
    obtain ⟨a, c, b, h5, h6, h7, h8⟩ := h4 hr
    exact ⟨a, c, b, inet_ntoa x, h5, h6, h7, h8, inet_ntoa_quad x⟩

example : inet_ntoa ⟨192, 168, 0, 10⟩ = b!"192.168.0.10" := by decide
example : ([⟨b!"/api", 20, 2, 10⟩] : List PathLimit).length ≤ 64 ∧ b!"/api/x".length < 512 := by decide

end Wayuu
