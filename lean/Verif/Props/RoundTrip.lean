import Verif.Props.Strings
import Verif.Spec.RoundTrip
/-
Property C159 (string_utils.c:134-191: join and split).
-/
namespace Wayuu
open C Spec

theorem runs_lead {delim d s : Str} {ts : List Str} (h : Spec.Runs delim s ts) (hd : ∀ c ∈ d, c ∈ delim) : Spec.Runs delim (d ++ s) ts := by
  cases h with
  | nil d' h' =>
    refine .nil _ (fun c hc => ?_)
    rcases List.mem_append.mp hc with hc | hc
    · exact hd c hc
    · exact h' c hc
  | last d' t h1 h2 h3 =>
    rw [← List.append_assoc]
    refine .last _ t (fun c hc => ?_) h2 h3
    rcases List.mem_append.mp hc with hc | hc
    · exact hd c hc
    · exact h1 c hc
  | cons d' t x s ts h1 h2 h3 h4 h5 =>
    rw [show d ++ (d' ++ t ++ x :: s) = (d ++ d') ++ t ++ x :: s by simp]
    refine .cons _ t x s ts (fun c hc => ?_) h2 h3 h4 h5
    rcases List.mem_append.mp hc with hc | hc
    · exact hd c hc
    · exact h1 c hc

/-- The parts of joined elements are the elements that are not empty. -/
theorem runs_joined (delim : Str) (hd : delim ≠ []) (es : List Str) (h : ∀ e ∈ es, ∀ c ∈ e, c ∉ delim) :
    Spec.Runs delim (sepBy delim es) (es.filter fun e => decide (e ≠ [])) := by
  obtain ⟨x, xs, rfl⟩ := List.exists_cons_of_ne_nil hd
  induction es with
  | nil => exact .nil [] (by simp)
  | cons e es ih =>
    have ih := ih (fun e' he' => h e' (by simp [he']))
    have he := h e (by simp)
    cases es with
    | nil =>
      by_cases h0 : e = []
      · subst h0; exact .nil [] (by simp)
      · have := Spec.Runs.last (delim := x :: xs) [] e (by simp) h0 he
        simpa [sepBy, h0] using this
    | cons e' es =>
      have e1 : sepBy (x :: xs) (e :: e' :: es) = e ++ (x :: xs) ++ sepBy (x :: xs) (e' :: es) := by simp [sepBy]
      rw [e1]
      by_cases h0 : e = []
      · subst h0
        have := runs_lead ih (d := x :: xs) (fun c hc => hc)
        simpa using this
      · have h2 := runs_lead ih (d := xs) (fun c hc => by simp [hc])
        have := Spec.Runs.cons (delim := x :: xs) [] e x (xs ++ sepBy (x :: xs) (e' :: es)) _ (by simp) h0 he (by simp) h2
        rw [List.filter_cons, if_pos (by simpa using h0)]
        simpa using this

theorem runs_parts {delim s : Str} {ts : List Str} (h : Spec.Runs delim s ts) : ∀ t ∈ ts, t ≠ [] ∧ ∀ c ∈ t, c ∉ delim := by
  induction h with
  | nil => simp
  | last d t _ h2 h3 => simpa using ⟨h2, h3⟩
  | cons d t x s ts _ h2 h3 _ _ ih =>
    intro u hu
    rcases List.mem_cons.mp hu with rfl | hu
    · exact ⟨h2, h3⟩
    · exact ih u hu

theorem runs_mem_length {delim s : Str} {ts : List Str} (h : Spec.Runs delim s ts) : ∀ t ∈ ts, t.length ≤ s.length := by
  induction h with
  | nil => simp
  | last d t _ _ _ => simp
  | cons d t x s ts _ _ _ _ _ ih =>
    intro u hu
    rcases List.mem_cons.mp hu with rfl | hu
    · simp; omega
    · have := ih u hu
      simp; omega

theorem tidy_sepBy {d : Byte} {ts : List Str} (h : ∀ t ∈ ts, t ≠ [] ∧ d ∉ t) : Tidy d (sepBy [d] ts) := by
  induction ts with
  | nil => intro a b e; simp [sepBy] at e
  | cons t ts ih =>
    have ih := ih (fun u hu => h u (by simp [hu]))
    obtain ⟨h1, h2⟩ := h t (by simp)
    cases ts with
    | nil =>
      intro a b e
      have e : t = a ++ d :: b := e
      exact absurd (by rw [e]; simp) h2
    | cons u r =>
      intro a b e
      have e : t ++ [d] ++ sepBy [d] (u :: r) = a ++ d :: b := e
      rw [List.append_assoc] at e
      rcases List.append_eq_append_iff.mp e with ⟨m, rfl, h4⟩ | ⟨m, rfl, h4⟩
      · cases m with
        | nil =>
          rw [List.append_nil]
          refine ⟨h1, ?_⟩
          simp only [List.singleton_append, List.nil_append, List.cons.injEq, true_and] at h4
          obtain ⟨k1, k2⟩ := h u (by simp)
          obtain ⟨y, ys, rfl⟩ := List.exists_cons_of_ne_nil k1
          rw [← h4]
          have hy : y ≠ d := fun e => k2 (by simp [e])
          cases r with
          | nil => exact ⟨y, ys, rfl, hy⟩
          | cons v r => exact ⟨y, _, rfl, hy⟩
        | cons y m =>
          simp only [List.singleton_append, List.cons_append, List.cons.injEq] at h4
          exact ⟨by simp [h1], (ih m b h4.2).2⟩
      · cases m with
        | nil =>
          refine ⟨by simpa using h1, ?_⟩
          simp only [List.singleton_append, List.nil_append, List.cons.injEq, true_and] at h4
          obtain ⟨k1, k2⟩ := h u (by simp)
          obtain ⟨y, ys, rfl⟩ := List.exists_cons_of_ne_nil k1
          rw [h4]
          have hy : y ≠ d := fun e => k2 (by simp [e])
          cases r with
          | nil => exact ⟨y, ys, rfl, hy⟩
          | cons v r => exact ⟨y, _, rfl, hy⟩
        | cons y m =>
          simp only [List.cons_append, List.cons.injEq] at h4
          exact absurd (by simp [h4.1]) h2

theorem sepBy_tidy {d : Byte} {s : Str} {ts : List Str} (h : Spec.Runs [d] s ts) (ht : Tidy d s) : sepBy [d] ts = s := by
  have hlead : ∀ {a rest : Str}, (∀ c ∈ a, c ∈ [d]) → Tidy d (a ++ rest) → a = [] := by
    intro a rest ha ht
    cases a with
    | nil => rfl
    | cons x a =>
      have : x = d := by simpa using ha x (by simp)
      subst this
      exact absurd rfl (ht [] (a ++ rest) (by simp)).1
  induction h with
  | nil d' h1 =>
    have := hlead (rest := []) h1 (by simpa using ht)
    subst this
    rfl
  | last d' t h1 h2 h3 =>
    have := hlead h1 ht
    subst this
    rfl
  | cons d' t x s ts h1 h2 h3 h4 h5 ih =>
    have : d' = [] := hlead (rest := t ++ x :: s) h1 (by simpa using ht)
    subst this
    have hx : x = d := by simpa using h4
    subst hx
    have ht : Tidy x (t ++ x :: s) := by simpa using ht
    obtain ⟨-, y, r, e, hy⟩ := ht t s rfl
    have hs : Tidy x s := by
      intro a b e'
      subst e'
      obtain ⟨-, h8⟩ := ht (t ++ x :: a) b (by simp)
      refine ⟨?_, h8⟩
      rintro rfl
      simp only [List.nil_append, List.cons.injEq] at e
      exact hy e.1.symm
    have ih := ih hs
    cases ts with
    | nil =>
      have : s = [] := by simpa [sepBy] using ih.symm
      rw [this] at e
      cases e
    | cons u us =>
      show t ++ [x] ++ sepBy [x] (u :: us) = _
      rw [ih]
      simp

/-- C159: what was joined with a delimiter is given back by splitting, and what was split by joining (short texts, for which C05 and C06
say what the two functions do). -/
def C159_statement : Prop :=
  (∀ (es : List Str) (d : Byte), d ≠ 0 → (∀ e ∈ es, NulFree e ∧ d ∉ e ∧ e.length < 1023) → es.length ≤ 50 →
    ∃ j bufs, join (some (es.map some)) es.length [d] = ok j ∧ split j.s [d] = ok bufs ∧ bufs.map cstr = es.map ok) ∧
  (∀ (s : Str) (d : Byte), d ≠ 0 → NulFree s → s.length < 50 →
    ∃ (bufs : List Buf) (ts : List Str) (j : HStr), split s [d] = ok bufs ∧ bufs.map cstr = ts.map ok ∧
      join (some (ts.map some)) ts.length [d] = ok j ∧ j.s = s)

/-- C159, splitting what was joined, for every list of elements and every delimiter: the elements that are not empty come back. (The
elements must not have bytes of the delimiter: `join` puts it in as a text, `split` takes each of its bytes for a delimiter.) -/
theorem C159_joined (es : List Str) (delim : Str) (hd : delim ≠ []) (hn : NulFree delim)
    (h : ∀ e ∈ es, NulFree e ∧ (∀ c ∈ e, c ∉ delim) ∧ e.length < 1023) (hc : (es.filter fun e => decide (e ≠ [])).length ≤ 50) :
    ∃ j bufs, join (some (es.map some)) es.length delim = ok j ∧ split j.s delim = ok bufs ∧
      bufs.map cstr = (es.filter fun e => decide (e ≠ [])).map ok := by
  have hj := C06_join es [] delim
  rw [List.append_nil] at hj
  have hr := runs_joined delim hd es (fun e he => (h e he).2.1)
  have hnf : NulFree (sepBy delim es) := by
    clear hj hr hc
    induction es with
    | nil => simp [sepBy, NulFree]
    | cons e es ih =>
      have ih := ih (fun e' he' => h e' (by simp [he']))
      have he := (h e (by simp)).1
      cases es with
      | nil => exact he
      | cons e' es =>
        show NulFree (e ++ delim ++ sepBy delim (e' :: es))
        simp only [nulFree_append]
        exact ⟨⟨he, hn⟩, ih⟩
  obtain ⟨ts, h1, h2, h3⟩ := C05_split (sepBy delim es) delim hnf
  have := h2 _ hr
  subst this
  obtain ⟨bufs, h4, h5, -⟩ := h3 (fun t ht => (h t (List.mem_of_mem_filter ht)).2.2) hc
  exact ⟨_, bufs, hj, h4, h5⟩

/-- C159, joining what was split: the text comes back exactly if no delimiter is first, last or next to another one. -/
theorem C159_exact (s : Str) (d : Byte) (hs : NulFree s) (ts : List Str) (hr : Spec.Runs [d] s ts)
    (hlen : ∀ t ∈ ts, t.length < 1023) (hc : ts.length ≤ 50) :
    ∃ bufs j, split s [d] = ok bufs ∧ bufs.map cstr = ts.map ok ∧ join (some (ts.map some)) ts.length [d] = ok j ∧
      (j.s = s ↔ Tidy d s) := by
  obtain ⟨ts', -, h2, h3⟩ := C05_split s [d] hs
  have := h2 _ hr
  subst this
  obtain ⟨bufs, h4, h5, -⟩ := h3 hlen hc
  have hj := C06_join ts [] [d]
  rw [List.append_nil] at hj
  refine ⟨bufs, _, h4, h5, hj, ?_⟩
  show sepBy [d] ts = s ↔ _
  constructor
  · intro e
    rw [← e]
    exact tidy_sepBy (fun t ht => ⟨(runs_parts hr t ht).1, fun hm => (runs_parts hr t ht).2 d hm (by simp)⟩)
  · exact sepBy_tidy hr

/-- C159 is false: of `a,,b` the element in the middle is lost. -/
theorem C159_refuted : ¬ C159_statement := by
  rintro ⟨h, -⟩
  obtain ⟨j, bufs, h1, h2, h3⟩ := h [b!"a", [], b!"b"] 44 (by decide) (by decide) (by decide)
  obtain ⟨j', bufs', k1, k2, k3⟩ := C159_joined [b!"a", [], b!"b"] [44] (by decide) (by decide) (by decide) (by decide)
  rw [h1] at k1
  obtain rfl := (ok.inj k1)
  rw [h2] at k2
  obtain rfl := (ok.inj k2)
  rw [h3] at k3
  have := congrArg List.length k3
  revert this
  decide

/-- C159, what holds: both ways for elements that are not empty, and texts without empty elements. -/
theorem C159_partial :
    (∀ (es : List Str) (d : Byte), d ≠ 0 → (∀ e ∈ es, NulFree e ∧ d ∉ e ∧ e ≠ [] ∧ e.length < 1023) → es.length ≤ 50 →
      ∃ j bufs, join (some (es.map some)) es.length [d] = ok j ∧ split j.s [d] = ok bufs ∧ bufs.map cstr = es.map ok) ∧
    (∀ (s : Str) (d : Byte), d ≠ 0 → NulFree s → s.length < 50 → Tidy d s →
      ∃ (bufs : List Buf) (ts : List Str) (j : HStr), split s [d] = ok bufs ∧ bufs.map cstr = ts.map ok ∧
        join (some (ts.map some)) ts.length [d] = ok j ∧ j.s = s) := by
  constructor
  · intro es d hd h hc
    have hf : (es.filter fun e => decide (e ≠ [])) = es := by
      rw [List.filter_eq_self]
      intro e he
      simpa using (h e he).2.2.1
    have := C159_joined es [d] (by simp) (by simpa [NulFree] using hd) (fun e he => ⟨(h e he).1, fun c hc hm => (h e he).2.1 (by
      have : c = d := by simpa using hm
      exact this ▸ hc), (h e he).2.2.2⟩) (by rw [hf]; exact hc)
    rwa [hf] at this
  · intro s d hd hs hl ht
    obtain ⟨ts, hr⟩ := runs_exists [d] s
    have hsum := runs_length hr
    obtain ⟨bufs, j, h1, h2, h3, h4⟩ := C159_exact s d hs ts hr (fun t htm => by
      have := runs_mem_length hr t htm
      omega) (by omega)
    exact ⟨bufs, ts, j, h1, h2, h3, h4.mpr ht⟩

example : ∃ j bufs, join (some ([b!"ab", b!"c"].map some)) 2 b!"," = ok j ∧ split j.s b!"," = ok bufs ∧ bufs.map cstr = [ok b!"ab", ok b!"c"] :=
  C159_partial.1 [b!"ab", b!"c"] 44 (by decide) (by decide) (by decide)
example : Tidy 44 b!"ab,c" := tidy_sepBy (ts := [b!"ab", b!"c"]) (by decide)
example : ¬ Tidy 44 b!"ab,,c" := fun h => by
  obtain ⟨-, x, r, e, hx⟩ := h b!"ab" b!",c" rfl
  cases e
  exact hx rfl
/-- `join` with `", "`, two delimiters for `split` -/
example : ∃ j bufs, join (some ([b!"ab", [], b!"c"].map some)) 3 b!", " = ok j ∧ split j.s b!", " = ok bufs ∧
    bufs.map cstr = [ok b!"ab", ok b!"c"] :=
  C159_joined [b!"ab", [], b!"c"] b!", " (by decide) (by decide) (by decide) (by decide)

end Wayuu
