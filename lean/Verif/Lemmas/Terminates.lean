import Verif.Lemmas.LogBound
import Verif.Lemmas.Strings2
import Verif.Spec.Loops
/-
Loops whose end depends on data end by themselves.
-/
namespace Wayuu
open C Spec

/-- A loop with a limit `n` on its rounds does what the loop without limit does, if a quantity below `n` gets smaller in
every round. -/
theorem ends_of {σ ρ : Type} {body : σ → C (σ ⊕ ρ)} {loop : Nat → σ → C ρ} (μ : σ → Nat) (P : σ → Prop)
    (h1 : ∀ n s, P s → loop (n + 1) s = body s >>= fun x => match x with
      | .inl s' => loop n s'
      | .inr r => ok r)
    (h2 : ∀ s s', P s → body s = ok (.inl s') → μ s' < μ s ∧ P s') (n : Nat) : ∀ s, P s → μ s < n → Ends body s (loop n s) := by
  induction n with
  | zero => intro s _ h; omega
  | succ n ih =>
    intro s hp hn
    rw [h1 n s hp]
    cases hb : body s with
    | ub f => exact .fault hb
    | ok x =>
      cases x with
      | inr r => exact .leave hb
      | inl s' =>
        obtain ⟨a, b⟩ := h2 s s' hp hb
        exact .again hb (ih s' b (by omega))

theorem Ends.unique {σ ρ : Type} {body : σ → C (σ ⊕ ρ)} {s : σ} {r r' : C ρ} (h : Ends body s r) (h' : Ends body s r') : r = r' := by
  induction h with
  | fault hb =>
    cases h' with
    | fault hb' => rw [hb] at hb'; cases hb'; rfl
    | leave hb' => rw [hb] at hb'; cases hb'
    | again hb' _ => rw [hb] at hb'; cases hb'
  | leave hb =>
    cases h' with
    | fault hb' => rw [hb] at hb'; cases hb'
    | leave hb' => rw [hb] at hb'; cases hb'; rfl
    | again hb' _ => rw [hb] at hb'; cases hb'
  | again hb _ ih =>
    cases h' with
    | fault hb' => rw [hb] at hb'; cases hb'
    | leave hb' => rw [hb] at hb'; cases hb'
    | again hb' h' => rw [hb] at hb'; cases hb'; exact ih h'

/-! ### The header loop -/

theorem hdrContentType_input {h h' : HdrSt} {inp : List Byte} {line : Str} (hh : hdrContentType h line = ok h') (hf : h.input = inp) : h'.input = inp := by
  have tail : ∀ x : HdrSt, x.input = inp →
      (if startswith line b!"Content-Type: multipart/form-data" then
        match strcasestr line b!"boundary=" with
        | some b => do
          let mb ← fmtInto 100 (b!"--" ++ b.drop 9)
          let mb ← trimStr mb
          ok { x with boundary := mb }
        | none => ok x
      else ok x) = ok h' → h'.input = inp := by
    intro x hx hh
    split at hh
    · split at hh
      · obtain ⟨_, -, hh⟩ := bind_eq_ok.mp hh
        obtain ⟨_, -, hh⟩ := bind_eq_ok.mp hh
        cases hh; exact hx
      · cases hh; exact hx
    · cases hh; exact hx
  unfold hdrContentType at hh
  dsimp only at hh
  split at hh
  · obtain ⟨_, -, hh⟩ := bind_eq_ok.mp hh
    obtain ⟨_, -, hh⟩ := bind_eq_ok.mp hh
    obtain ⟨x, e, hh⟩ := bind_eq_ok.mp hh
    exact tail x (by cases e; exact hf) hh
  · obtain ⟨x, e, hh⟩ := bind_eq_ok.mp hh
    exact tail x (by cases e; exact hf) hh

theorem hdrLengthIP_input {h h' : HdrSt} {inp : List Byte} {line : Str} (hh : hdrLengthIP h line = ok h') (hf : h.input = inp) : h'.input = inp := by
  have tail : ∀ x : HdrSt, x.input = inp →
      (if startswith line b!"X-Real-IP:" then do
        let buf ← trim x.buf
        let s ← strAt buf 11
        ok { x with buf, IP := s.take 24 }
      else ok x) = ok h' → h'.input = inp := by
    intro x hx hh
    split at hh
    · obtain ⟨_, -, hh⟩ := bind_eq_ok.mp hh
      obtain ⟨s, -, hh⟩ := bind_eq_ok.mp hh
      cases hh
      exact hx
    · cases hh; exact hx
  unfold hdrLengthIP at hh
  dsimp only at hh
  split at hh
  · obtain ⟨_, -, hh⟩ := bind_eq_ok.mp hh
    obtain ⟨x, e, hh⟩ := bind_eq_ok.mp hh
    exact tail x (by cases e; exact hf) hh
  · obtain ⟨x, e, hh⟩ := bind_eq_ok.mp hh
    exact tail x (by cases e; exact hf) hh

theorem hdrSession_input {h h' : HdrSt} {inp : List Byte} (hh : hdrSession h = ok h') (hf : h.input = inp) : h'.input = inp := by
  unfold hdrSession at hh
  obtain ⟨w, -, hh⟩ := bind_eq_ok.mp hh
  obtain ⟨_, -, hh⟩ := bind_eq_ok.mp hh
  have tail : ∀ x : HdrSt, x.input = inp →
      (if startswith w b!"Cookie:" then do
        let c ← x.session.load 0
        if c = 0 then do
          let s ← strAt x.buf 18
          if s.length < MAX_SESSION then do
            let session ← strcpyAt x.session 0 s
            ok { x with session }
          else ok x
        else ok x
      else ok x) = ok h' → h'.input = inp := by
    intro x hx hh
    split at hh
    · obtain ⟨_, -, hh⟩ := bind_eq_ok.mp hh
      split at hh
      · obtain ⟨_, -, hh⟩ := bind_eq_ok.mp hh
        split at hh
        · obtain ⟨_, -, hh⟩ := bind_eq_ok.mp hh
          cases hh; exact hx
        · cases hh; exact hx
      · cases hh; exact hx
    · cases hh; exact hx
  dsimp only at hh
  split at hh
  · obtain ⟨_, -, hh⟩ := bind_eq_ok.mp hh
    obtain ⟨_, -, hh⟩ := bind_eq_ok.mp hh
    obtain ⟨_, -, hh⟩ := bind_eq_ok.mp hh
    obtain ⟨x, e, hh⟩ := bind_eq_ok.mp hh
    exact tail x (by cases e; exact hf) hh
  · obtain ⟨x, e, hh⟩ := bind_eq_ok.mp hh
    exact tail x (by cases e; exact hf) hh

theorem headerStep_input {h h' : HdrSt} {inp : List Byte} (hh : headerStep h = ok h') (hf : h.input = inp) : h'.input = inp := by
  unfold headerStep at hh
  obtain ⟨_, -, hh⟩ := bind_eq_ok.mp hh
  obtain ⟨hs, -, hh⟩ := bind_eq_ok.mp hh
  obtain ⟨h1, e2, hh⟩ := bind_eq_ok.mp hh
  obtain ⟨h2, e3, hh⟩ := bind_eq_ok.mp hh
  exact hdrSession_input hh (hdrLengthIP_input e3 (hdrContentType_input e2 hf))


theorem getLineLoop_consumes (n : Nat) : ∀ {inp : List Byte} {buf : Buf} {i : Nat} {k : Nat} {b : Buf} {r : List Byte},
    getLineLoop n inp buf i = ok (k, b, r) → r.length + k = inp.length + i := by
  induction n with
  | zero => intro inp buf i k b r h; cases h; rfl
  | succ n ih =>
    intro inp buf i k b r h
    cases inp with
    | nil => cases h; rfl
    | cons c inp =>
      unfold getLineLoop at h
      obtain ⟨b1, -, h⟩ := bind_eq_ok.mp h
      split at h
      · cases h; simp only [List.length_cons]; omega
      · have := ih h
        simp only [List.length_cons]; omega

theorem get_line_consumes {inp : List Byte} {buf : Buf} {size : Nat} {k : Nat} {b : Buf} {r : List Byte}
    (h : get_line inp buf size = ok (k, b, r)) : r.length + k = inp.length := by
  unfold get_line at h
  obtain ⟨⟨i, b1, r1⟩, h1, h⟩ := bind_eq_ok.mp h
  obtain ⟨b2, -, h⟩ := bind_eq_ok.mp h
  cases h
  simpa using getLineLoop_consumes _ h1

/-! ### Loops over lines of text -/

theorem fgetsAux_rest (n : Nat) (s : Str) : (fgetsAux n s).2.length ≤ s.length := by
  induction n generalizing s with
  | zero => simp [fgetsAux]
  | succ n ih =>
    cases s with
    | nil => simp [fgetsAux]
    | cons c s =>
      unfold fgetsAux
      split
      · simp
      · have := ih s
        simp only [List.length_cons]
        omega

theorem fgets_rest {n : Nat} (hn : 2 ≤ n) {s line rest : Str} (h : fgets n s = some (line, rest)) : rest.length < s.length := by
  cases s with
  | nil => cases h
  | cons c s =>
    unfold fgets at h
    simp only [Option.some.injEq] at h
    obtain ⟨k, rfl⟩ : ∃ k, n = k + 2 := ⟨n - 2, by omega⟩
    simp only [Nat.add_sub_cancel, show k + 2 - 1 = k + 1 by omega, fgetsAux] at h
    split at h
    · cases h; simp
    · cases h
      have := fgetsAux_rest k s
      simp only [List.length_cons]
      omega

theorem getlineAux_rest (s : Str) : (getlineAux s).2.length ≤ s.length := by
  induction s with
  | nil => simp [getlineAux]
  | cons c s ih =>
    unfold getlineAux
    split
    · simp
    · simp only [List.length_cons]; omega

theorem getline_rest {s line rest : Str} (h : getline s = some (line, rest)) : rest.length < s.length := by
  cases s with
  | nil => cases h
  | cons c s =>
    unfold getline at h
    simp only [Option.some.injEq, getlineAux] at h
    split at h
    · cases h; simp
    · cases h
      have := getlineAux_rest s
      simp only [List.length_cons]
      omega

/-! ### Loops over the bytes of a string -/

theorem strtok_rest {s delim t rest : Str} (h : strtok s delim = some (t, rest)) : rest.length < s.length := by
  obtain ⟨d, -, ht, -, h⟩ := strtok_some h
  have : 0 < t.length := List.length_pos_iff.mpr ht
  rcases h with ⟨rfl, rfl⟩ | ⟨x, -, rfl⟩
  · simp only [List.length_append, List.length_nil]; omega
  · simp only [List.length_append, List.length_cons]; omega

theorem store_length {b b' : Buf} {i : Nat} {v : Byte} (h : b.store i v = ok b') : b'.length = b.length := by
  unfold Buf.store at h
  split at h
  · cases h; simp
  · cases h

theorem load_over {b : Buf} {i : Nat} (h : b.length ≤ i) : b.load i = ub .oob := by
  unfold Buf.load
  simp [h]

/-! ### The loop over the parts of a form -/

theorem findLoop_ge (hay : Buf) (needle : Str) (n : Nat) : ∀ {i : Nat} {r : Int}, findLoop hay needle n i = ok r → r < 0 ∨ (i : Int) ≤ r := by
  induction n with
  | zero => intro i r h; cases h; left; decide
  | succ n ih =>
    intro i r h
    unfold findLoop at h
    obtain ⟨f, -, h⟩ := bind_eq_ok.mp h
    split at h
    · cases h; right; omega
    · rcases ih h with h | h
      · exact Or.inl h
      · right; omega

/-! ### The loops -/

theorem headerLoop_ends (n k : Nat) (h : HdrSt) (hn : h.input.length + min k 1 < n) :
    Ends headerRound (k, h) (headerLoop n k h) := by
  refine ends_of (body := headerRound) (loop := fun n s => headerLoop n s.1 s.2) (fun s => s.2.input.length + min s.1 1)
    (fun _ => True) ?_ ?_ n (k, h) trivial hn
  · rintro n ⟨k, h⟩ -
    show headerLoop (n + 1) k h = _
    conv_lhs => unfold headerLoop
    dsimp only [headerRound]
    cases cstr h.buf with
    | ub f => rfl
    | ok line =>
      simp only [ok_bind]
      split
      · cases headerStep h with
        | ub f => rfl
        | ok h1 =>
          simp only [ok_bind]
          cases get_line h1.input h1.buf 1024 with
          | ub f => rfl
          | ok x => rfl
      · rfl
  · rintro ⟨k, h⟩ ⟨k', h'⟩ - e
    refine ⟨?_, trivial⟩
    unfold headerRound at e
    obtain ⟨line, -, e⟩ := bind_eq_ok.mp e
    split at e
    · rename_i hc
      obtain ⟨h1, e1, e⟩ := bind_eq_ok.mp e
      obtain ⟨⟨k2, b2, r2⟩, e2, e⟩ := bind_eq_ok.mp e
      cases e
      have := get_line_consumes e2
      rw [headerStep_input e1 rfl] at this
      have := hc.1
      simp only
      omega
    · cases e

theorem partsLoop_ends (env : Env) (form : Buf) (boundary : Str) (len n ptr : Nat) (part fields : Buf) (fs : FS) (hn : len - ptr < n) :
    Ends (partRound env form boundary len) (ptr, part, fields, fs) (partsLoop env form boundary len n ptr part fields fs) := by
  refine ends_of (body := partRound env form boundary len) (loop := fun n s => partsLoop env form boundary len n s.1 s.2.1 s.2.2.1 s.2.2.2)
    (fun s => len - s.1) (fun _ => True) ?_ ?_ n (ptr, part, fields, fs) trivial hn
  · rintro n ⟨ptr, part, fields, fs⟩ -
    show partsLoop env form boundary len (n + 1) ptr part fields fs = _
    conv_lhs => unfold partsLoop
    dsimp only [partRound]
    split
    · rfl
    · cases text_find_after form boundary ptr len with
      | ub f => rfl
      | ok a =>
        simp only [ok_bind]
        split
        · rfl
        · cases text_find_after form boundary a.toNat len with
          | ub f => rfl
          | ok b =>
            simp only [ok_bind]
            split
            · rfl
            · cases memcpyI part form a.toNat (b - a - boundary.length) with
              | ub f => rfl
              | ok p =>
                simp only [ok_bind]
                cases part_parse env fs fields p (b - a - boundary.length) with
                | ub f => rfl
                | ok x =>
                  obtain ⟨x1, x2⟩ := x
                  simp only [ok_bind]
                  cases trim p with
                  | ub f => rfl
                  | ok p => rfl
  · rintro ⟨ptr, part, fields, fs⟩ ⟨ptr', part', fields', fs'⟩ - e
    refine ⟨?_, trivial⟩
    unfold partRound at e
    dsimp only at e
    split at e
    · cases e
    · obtain ⟨a, e1, e⟩ := bind_eq_ok.mp e
      split at e
      · cases e
      · obtain ⟨b, -, e⟩ := bind_eq_ok.mp e
        split at e
        · cases e
        · obtain ⟨_, -, e⟩ := bind_eq_ok.mp e
          obtain ⟨⟨_, _⟩, -, e⟩ := bind_eq_ok.mp e
          obtain ⟨_, -, e⟩ := bind_eq_ok.mp e
          cases e
          rcases findLoop_ge _ _ _ e1 with h | h
          · omega
          · simp only; omega

theorem streamLoop_ends (n : Nat) (st : St) (len : Int) (s : Str) (hn : s.length < n) :
    Ends streamRound (st, len, s) (streamLoop n st len s) := by
  refine ends_of (body := streamRound) (loop := fun n s => streamLoop n s.1 s.2.1 s.2.2) (fun s => s.2.2.length)
    (fun _ => True) ?_ ?_ n (st, len, s) trivial hn
  · rintro n ⟨st, len, s⟩ -
    show streamLoop (n + 1) st len s = _
    conv_lhs => unfold streamLoop
    dsimp only [streamRound]
    cases fgets 1023 s with
    | none => rfl
    | some x =>
      obtain ⟨line, rest⟩ := x
      dsimp only
      cases addInt len (untilNul line).length with
      | ub f => simp only [ub_bind]
      | ok l =>
        simp only [ok_bind]
        cases http_print st (untilNul line) (untilNul line).length with
        | ub f => simp only [ub_bind]
        | ok st => simp only [ok_bind]
  · rintro ⟨st, len, s⟩ ⟨st', len', s'⟩ - e
    refine ⟨?_, trivial⟩
    unfold streamRound at e
    dsimp only at e
    split at e
    · cases e
    · rename_i e1
      obtain ⟨_, -, e⟩ := bind_eq_ok.mp e
      obtain ⟨_, -, e⟩ := bind_eq_ok.mp e
      simp only [ok.injEq, Sum.inl.injEq, Prod.mk.injEq] at e
      rw [← e.2.2]
      exact fgets_rest (by omega) e1

theorem parseLoop_ends (path : Str) (flags : KeyFlags) (n : Nat) (s : Str) (calls : List ConfItem) (hn : s.length < n) :
    Ends (confRound path flags) (s, calls) (parseLoop path flags n s calls) := by
  refine ends_of (body := confRound path flags) (loop := fun n s => parseLoop path flags n s.1 s.2) (fun s => s.1.length)
    (fun _ => True) ?_ ?_ n (s, calls) trivial hn
  · rintro n ⟨s, calls⟩ -
    show parseLoop path flags (n + 1) s calls = _
    conv_lhs => unfold parseLoop
    dsimp only [confRound]
    cases fgets MAX_LINE_LEN s with
    | none => rfl
    | some x =>
      obtain ⟨line, rest⟩ := x
      dsimp only
      cases conf_parse_first_pass (untilNul line) with
      | ub f => rfl
      | ok item =>
        simp only [ok_bind]
        cases item with
        | none =>
          dsimp only
          cases fmtInto 120 (b!"Entity in invalid format, path: " ++ path ++ b!"\n") with
          | ub f => rfl
          | ok _ => rfl
        | some item =>
          dsimp only
          cases get_key_flag item.key.s flags with
          | none =>
            dsimp only
            cases free_conf_item item with
            | ub f => rfl
            | ok _ => rfl
          | some flag =>
            dsimp only
            split
            · cases conf_parse_multi item with
              | ub f => rfl
              | ok it =>
                simp only [ok_bind]
                cases free_conf_item it with
                | ub f => rfl
                | ok _ => rfl
            · cases free_conf_item item with
              | ub f => rfl
              | ok _ => rfl
  · rintro ⟨s, calls⟩ ⟨s', calls'⟩ - e
    refine ⟨?_, trivial⟩
    unfold confRound at e
    dsimp only at e
    split at e
    · cases e
    · rename_i e1
      have hlt := fgets_rest (by decide) e1
      obtain ⟨item, -, e⟩ := bind_eq_ok.mp e
      split at e
      · obtain ⟨_, -, e⟩ := bind_eq_ok.mp e
        cases e
      · split at e
        · split at e
          · obtain ⟨_, -, e⟩ := bind_eq_ok.mp e
            obtain ⟨_, -, e⟩ := bind_eq_ok.mp e
            cases e; exact hlt
          · obtain ⟨_, -, e⟩ := bind_eq_ok.mp e
            obtain ⟨_, -, e⟩ := bind_eq_ok.mp e
            cases e; exact hlt
        · obtain ⟨_, -, e⟩ := bind_eq_ok.mp e
          cases e; exact hlt

theorem limitFields_ends (n : Nat) (r : PathLimit) (s : Str) (i : Nat) (h1 : i ≤ 3) (hn : 3 < n + i) :
    Ends fieldRound (r, s, i) (ok (limitFields n r s i)) := by
  refine ends_of (body := fieldRound) (loop := fun n s => ok (limitFields n s.1 s.2.1 s.2.2)) (fun s => 3 - s.2.2)
    (fun s => s.2.2 ≤ 3) ?_ ?_ n (r, s, i) h1 (by simp only; omega)
  · rintro n ⟨r, s, i⟩ -
    show ok (limitFields (n + 1) r s i) = _
    conv_lhs => unfold limitFields
    dsimp only [fieldRound]
    cases strtok s b!"," with
    | none => rfl
    | some x =>
      obtain ⟨t, rest⟩ := x
      dsimp only
      by_cases hc : 4 ≤ i + 1
      · simp only [if_pos hc, ok_bind]
      · simp only [if_neg hc, ok_bind]
  · rintro ⟨r, s, i⟩ ⟨r', s', i'⟩ hi e
    unfold fieldRound at e
    dsimp only at e hi
    split at e
    · cases e
    · by_cases hc : 4 ≤ i + 1
      · rw [if_pos hc] at e; cases e
      · rw [if_neg hc] at e
        simp only [ok.injEq, Sum.inl.injEq, Prod.mk.injEq] at e
        simp only [← e.2.2]
        omega

theorem limitsLoop_ends (n : Nat) (s : Str) (acc : List PathLimit) (cur : PathLimit) (hn : s.length < n) :
    Ends limitRound (s, acc, cur) (limitsLoop n s acc cur) := by
  refine ends_of (body := limitRound) (loop := fun n s => limitsLoop n s.1 s.2.1 s.2.2) (fun s => s.1.length)
    (fun _ => True) ?_ ?_ n (s, acc, cur) trivial hn
  · rintro n ⟨s, acc, cur⟩ -
    show limitsLoop (n + 1) s acc cur = _
    conv_lhs => unfold limitsLoop
    dsimp only [limitRound]
    cases getline s with
    | none => rfl
    | some x =>
      obtain ⟨line, rest⟩ := x
      dsimp only
      split
      · cases strtok (untilNul line) b!"," with
        | none => rfl
        | some x =>
          obtain ⟨token, more⟩ := x
          dsimp only
          cases fmtInto HTTP_MAX_PATH token with
          | ub f => rfl
          | ok p =>
            simp only [ok_bind]
            split
            · split
              · rfl
              · rfl
            · rfl
      · rfl
  · rintro ⟨s, acc, cur⟩ ⟨s', acc', cur'⟩ - e
    refine ⟨?_, trivial⟩
    unfold limitRound at e
    dsimp only at e
    split at e
    · cases e
    · rename_i e1
      have hlt := getline_rest e1
      split at e
      · split at e
        · cases e
        · obtain ⟨_, -, e⟩ := bind_eq_ok.mp e
          split at e
          · split at e
            · cases e
            · cases e; exact hlt
          · cases e; exact hlt
      · cases e; exact hlt

theorem splitLoop_ends (delim : Str) (n : Nat) (s : Str) (acc : List Buf) (hn : s.length < n) :
    Ends (splitRound delim) (s, acc) (splitLoop delim n s acc) := by
  refine ends_of (body := splitRound delim) (loop := fun n s => splitLoop delim n s.1 s.2) (fun s => s.1.length)
    (fun _ => True) ?_ ?_ n (s, acc) trivial hn
  · rintro n ⟨s, acc⟩ -
    show splitLoop delim (n + 1) s acc = _
    conv_lhs => unfold splitLoop
    dsimp only [splitRound]
    cases strtok s delim with
    | none => rfl
    | some x =>
      obtain ⟨t, rest⟩ := x
      dsimp only
      split
      · rfl
      · cases strncpyAt (malloc MAX_SPLIT_STR_LEN) 0 t (MAX_SPLIT_STR_LEN - 1) with
        | ub f => rfl
        | ok b => rfl
  · rintro ⟨s, acc⟩ ⟨s', acc'⟩ - e
    refine ⟨?_, trivial⟩
    unfold splitRound at e
    dsimp only at e
    split at e
    · cases e
    · rename_i e1
      split at e
      · cases e
      · obtain ⟨_, -, e⟩ := bind_eq_ok.mp e
        cases e
        exact strtok_rest e1

theorem rtrimLoop_ends (sep : Byte) (n : Nat) (b : Buf) (i : Nat) (h0 : 0 < n) (hn : b.length ≤ n + i) :
    Ends (rtrimRound sep) (b, i) (rtrimLoop sep n b i) := by
  refine ends_of (body := rtrimRound sep) (loop := fun n s => rtrimLoop sep n s.1 s.2) (fun s => s.1.length - 1 - s.2)
    (fun _ => True) ?_ ?_ n (b, i) trivial (by simp only; omega)
  · rintro n ⟨b, i⟩ -
    show rtrimLoop sep (n + 1) b i = _
    conv_lhs => unfold rtrimLoop
    dsimp only [rtrimRound]
    cases cstr b with
    | ub f => rfl
    | ok s =>
      simp only [ok_bind]
      split
      · cases b.load i with
        | ub f => rfl
        | ok c =>
          simp only [ok_bind]
          split
          · cases b.store i 0 with
            | ub f => rfl
            | ok b' => rfl
          · rfl
      · rfl
  · rintro ⟨b, i⟩ ⟨b', i'⟩ - e
    refine ⟨?_, trivial⟩
    unfold rtrimRound at e
    dsimp only at e
    obtain ⟨s, e1, e⟩ := bind_eq_ok.mp e
    have hl := cstr_length e1
    split at e
    · obtain ⟨c, -, e⟩ := bind_eq_ok.mp e
      split at e
      · obtain ⟨b1, e2, e⟩ := bind_eq_ok.mp e
        have := store_length e2
        cases e
        simp only
        omega
      · cases e
        simp only
        omega
    · cases e

theorem spaces_ends (b : Buf) (n j : Nat) (h0 : 0 < n) (hn : b.length < n + j) : Ends (spaceRound b) j (skipSpaces b n j) := by
  refine ends_of (body := spaceRound b) (loop := skipSpaces b) (fun j => b.length - j) (fun _ => True) ?_ ?_ n j trivial (by omega)
  · rintro n j -
    show skipSpaces b (n + 1) j = _
    conv_lhs => unfold skipSpaces
    dsimp only [spaceRound]
    cases b.load j with
    | ub f => rfl
    | ok c =>
      simp only [ok_bind]
      split <;> rfl
  · rintro j j' - e
    refine ⟨?_, trivial⟩
    unfold spaceRound at e
    obtain ⟨c, -, e⟩ := bind_eq_ok.mp e
    split at e
    · rename_i hc
      have := hc.2
      cases e
      omega
    · cases e

theorem load_lt {b : Buf} {i : Nat} {c : Byte} (h : b.load i = ok c) : i < b.length := by
  by_contra hn
  rw [load_over (by omega)] at h
  cases h

theorem resolve_ends {s : Str} {r : Buf} (n i : Nat) (hi : i ≤ s.length) (hn : s.length < n + i) :
    Ends (resolveRound (s.map some ++ some 0 :: r)) i (resolveScan (s.map some ++ some 0 :: r) n i) := by
  refine ends_of (body := resolveRound (s.map some ++ some 0 :: r)) (loop := resolveScan (s.map some ++ some 0 :: r)) (fun i => s.length - i)
    (fun i => i ≤ s.length) ?_ ?_ n i hi (by omega)
  · rintro n i -
    show resolveScan _ (n + 1) i = _
    conv_lhs => unfold resolveScan
    dsimp only [resolveRound]
    cases Buf.load (s.map some ++ some 0 :: r) i with
    | ub f => rfl
    | ok c =>
      simp only [ok_bind]
      split <;> rfl
  · rintro i i' hi e
    unfold resolveRound at e
    obtain ⟨c, e1, e⟩ := bind_eq_ok.mp e
    split at e
    · rename_i hc
      cases e
      by_cases hlt : i < s.length
      · omega
      · rw [load_append_right (by simp; omega)] at e1
        simp only [List.length_map, show i - s.length = 0 by omega, load_cons_zero, ok.injEq] at e1
        subst e1
        exact absurd hc (by decide)
    · cases e

theorem md5Feed_enough (b : Buf) (n : Nat) : ∀ (m off : Nat) (len : Int), len ≤ n → len ≤ m → md5Feed b n off len = md5Feed b m off len := by
  have stop : ∀ (k off : Nat) (len : Int), len ≤ 0 → md5Feed b k off len = ok [] := by
    intro k off len h
    cases k with
    | zero => rfl
    | succ k => unfold md5Feed; rw [if_neg (by omega)]
  induction n with
  | zero => intro m off len hn _; rw [stop _ _ _ (by omega), stop _ _ _ (by omega)]
  | succ n ih =>
    intro m off len hn hm
    cases m with
    | zero => rw [stop _ _ _ (by omega), stop _ _ _ (by omega)]
    | succ m =>
      unfold md5Feed
      rw [ih m (off + 512) (len - 512) (by omega) (by omega)]

theorem md5Feed_ends (b : Buf) (n off : Nat) (fed : List Byte) (len : Int) (hn : len ≤ n) :
    Ends (md5Round b) (fed, off, len) (md5Feed b n off len >>= fun r => ok (fed ++ r)) := by
  rw [md5Feed_enough b n (len.toNat + 1) off len hn (by omega)]
  refine ends_of (body := md5Round b) (loop := fun n s => md5Feed b n s.2.1 s.2.2 >>= fun r => ok (s.1 ++ r)) (fun s => s.2.2.toNat)
    (fun _ => True) ?_ ?_ (len.toNat + 1) (fed, off, len) trivial (by simp only; omega)
  · rintro n ⟨fed, off, len⟩ -
    show (md5Feed b (n + 1) off len >>= fun r => ok (fed ++ r)) = _
    conv_lhs => unfold md5Feed
    dsimp only [md5Round]
    split
    · by_cases h5 : 512 < len
      · simp only [if_pos h5]
        cases readBytes b off 512 with
        | ub f => rfl
        | ok c =>
          simp only [ok_bind]
          cases md5Feed b n (off + 512) (len - 512) with
          | ub f => rfl
          | ok r => simp only [ok_bind, List.append_assoc]
      · simp only [if_neg h5]
        cases readBytes b off len.toNat with
        | ub f => rfl
        | ok c =>
          simp only [ok_bind]
          cases md5Feed b n (off + 512) (len - 512) with
          | ub f => rfl
          | ok r => simp only [ok_bind, List.append_assoc]
    · simp
  · rintro ⟨fed, off, len⟩ ⟨fed', off', len'⟩ - e
    refine ⟨?_, trivial⟩
    unfold md5Round at e
    dsimp only at e
    split at e
    · split at e
      · obtain ⟨c, -, e⟩ := bind_eq_ok.mp e
        cases e
        simp only
        omega
      · obtain ⟨c, -, e⟩ := bind_eq_ok.mp e
        cases e
        simp only
        omega
    · cases e

end Wayuu
