import Verif.Lemmas.Messages
import Verif.Props.Blanks
import Verif.Props.Writes
/-
When a request is handled without fault its messages are defined; what they contain.
-/
namespace Wayuu
open C Spec

/-! ### the messages are defined -/

theorem static_defined {env : Env} {st st1 : St} (h : handle_static_routes env st = ok st1) : ∃ ms, static_msgs env st = ok ms := by
  unfold handle_static_routes at h
  unfold static_msgs
  obtain ⟨p, h1, h⟩ := bind_eq_ok.mp h
  obtain ⟨path, h2, h⟩ := bind_eq_ok.mp h
  obtain ⟨⟨r, st2⟩, h3, h⟩ := bind_eq_ok.mp h
  dsimp only at h h2
  rw [h1, ok_bind, h2, ok_bind]
  by_cases hf : is_file st.fs path = true
  · simp [hf]
  · simp only [Bool.not_eq_true] at hf
    have hr : r < 0 := by
      unfold direct_file at h3
      rw [show is_file (St.fs _) path = false from hf] at h3
      simp only [Bool.not_false, if_true] at h3
      cases h3
      decide
    rw [if_pos hr] at h
    obtain ⟨index, h4, -⟩ := bind_eq_ok.mp h
    rw [hf, h4]
    exact ⟨_, rfl⟩

theorem save_defined {env : Env} {fs : FS} {tmpfields tmpdata : Buf} {field : Str} {a b : Nat} {n : Int} {r : Buf × FS}
    (h : save_tmp_file env fs tmpfields field a tmpdata b n = ok r) : ∃ ms, save_msgs env fs tmpdata a b n = ok ms := by
  unfold save_tmp_file at h
  unfold save_msgs
  obtain ⟨s, h1, h⟩ := bind_eq_ok.mp h
  obtain ⟨o1, h2, h⟩ := bind_eq_ok.mp h
  obtain ⟨o2, h3, h⟩ := bind_eq_ok.mp h
  obtain ⟨o3, h4, h⟩ := bind_eq_ok.mp h
  dsimp only at h
  obtain ⟨m1, h5, h⟩ := bind_eq_ok.mp h
  obtain ⟨m2, h6, h⟩ := bind_eq_ok.mp h
  obtain ⟨t1, h7, h⟩ := bind_eq_ok.mp h
  obtain ⟨t2, h8, h⟩ := bind_eq_ok.mp h
  obtain ⟨fs', h9, h⟩ := bind_eq_ok.mp h
  obtain ⟨o4, h10, h⟩ := bind_eq_ok.mp h
  rw [h1, ok_bind, h2, ok_bind, h3, ok_bind, h4, ok_bind, h10, ok_bind, h5, ok_bind, h6, ok_bind]
  exact ⟨_, rfl⟩

theorem part_defined {env : Env} {fs : FS} {tmpfields tmpdata : Buf} {ip : Str} {n : Int} {r : Buf × FS}
    (h : part_parse env fs tmpfields tmpdata n = ok r) : ∃ ms, part_msgs env fs ip tmpdata n = ok ms := by
  unfold part_parse at h
  unfold part_msgs
  obtain ⟨text, h1, h⟩ := bind_eq_ok.mp h
  obtain ⟨start, h2, h⟩ := bind_eq_ok.mp h
  rw [h1, ok_bind, h2, ok_bind]
  split at h
  · rename_i hs
    rw [if_pos hs]; exact ⟨_, rfl⟩
  rename_i hs
  rw [if_neg hs]
  obtain ⟨tail, h3, h⟩ := bind_eq_ok.mp h
  rw [h3, ok_bind]
  split at h
  · rename_i ht
    rw [if_pos ht]; exact ⟨_, rfl⟩
  rename_i ht
  rw [if_neg ht]
  split at h
  · cases h
  dsimp only at h
  obtain ⟨f1, -, h⟩ := bind_eq_ok.mp h
  obtain ⟨f2, -, h⟩ := bind_eq_ok.mp h
  obtain ⟨f3, -, h⟩ := bind_eq_ok.mp h
  obtain ⟨ds, h4, h⟩ := bind_eq_ok.mp h
  obtain ⟨f, -, h⟩ := bind_eq_ok.mp h
  obtain ⟨tf, h⟩ : ∃ tf, (do
      let start_file ← text_find_after tmpdata b!"; filename=\"" 0 text.length
      if 0 < ds then
        if 0 < start_file then do
          let field ← cstr f3
          save_tmp_file env fs tf field start_file.toNat tmpdata ds.toNat n
        else do
          let value ← memcpyI (calloc (n + 1).toNat) tmpdata ds.toNat (n - ds - 2)
          let field ← cstr f3
          let value ← cstr value
          let tmpfields ← appendStr tf (field ++ b!"=" ++ value)
          ok (tmpfields, fs)
      else ok (tf, fs)) = ok r := by
    split at h
    · obtain ⟨tf, -, h⟩ := bind_eq_ok.mp h
      exact ⟨tf, h⟩
    · exact ⟨tmpfields, h⟩
  obtain ⟨sf, h5, h⟩ := bind_eq_ok.mp h
  rw [h4, ok_bind, h5, ok_bind]
  split at h
  · rename_i hd
    split at h
    · rename_i hf
      rw [if_pos ⟨hd, hf⟩]
      obtain ⟨fld, -, h⟩ := bind_eq_ok.mp h
      exact save_defined h
    · rename_i hf
      rw [if_neg (fun h' => hf h'.2)]; exact ⟨_, rfl⟩
  · rename_i hd
    rw [if_neg (fun h' => hd h'.1)]; exact ⟨_, rfl⟩

theorem parts_defined {env : Env} {form : Buf} {boundary ip : Str} {cl : Nat} : ∀ (n ptr : Nat) (tmppart tmpfields : Buf) (fs : FS)
    (r : Buf × FS), partsLoop env form boundary cl n ptr tmppart tmpfields fs = ok r →
    ∃ ms, partsMsgs env ip form boundary cl n ptr tmppart tmpfields fs = ok ms
  | 0, _, _, _, _, _, _ => ⟨_, rfl⟩
  | n + 1, ptr, tmppart, tmpfields, fs, r, h => by
    unfold partsLoop at h
    unfold partsMsgs
    split at h
    · rename_i h0
      rw [if_pos h0]; exact ⟨_, rfl⟩
    rename_i h0
    rw [if_neg h0]
    obtain ⟨ps, h1, h⟩ := bind_eq_ok.mp h
    rw [h1, ok_bind]
    split at h
    · rename_i h2
      rw [if_pos h2]; exact ⟨_, rfl⟩
    rename_i h2
    rw [if_neg h2]
    obtain ⟨pe, h3, h⟩ := bind_eq_ok.mp h
    rw [h3, ok_bind]
    split at h
    · rename_i h4
      rw [if_pos h4]; exact ⟨_, rfl⟩
    rename_i h4
    rw [if_neg h4]
    dsimp only at h ⊢
    obtain ⟨t1, h5, h⟩ := bind_eq_ok.mp h
    obtain ⟨⟨tf, fs'⟩, h6, h⟩ := bind_eq_ok.mp h
    obtain ⟨t2, h7, h⟩ := bind_eq_ok.mp h
    obtain ⟨ms, h8⟩ := part_defined (ip := ip) h6
    obtain ⟨more, h9⟩ := parts_defined (ip := ip) n _ _ _ _ _ h
    rw [h5, ok_bind, h8, ok_bind, h6, ok_bind]
    dsimp only
    rw [h7, ok_bind, h9, ok_bind]
    exact ⟨_, rfl⟩

theorem form_defined {env : Env} {st st1 : St} {n : Int} {b : Str} (h : readForm env st n b = ok st1) :
    ∃ ms, form_msgs env st n b = ok ms := by
  unfold readForm at h
  unfold form_msgs
  split at h
  · rename_i hn
    rw [if_pos hn]
    dsimp only at h ⊢
    obtain ⟨⟨form, inp⟩, h1, h⟩ := bind_eq_ok.mp h
    rw [h1, ok_bind]
    dsimp only at h ⊢
    split at h
    · rename_i hb
      rw [if_pos hb]
      unfold multipart_parse at h
      obtain ⟨⟨f2, fs2⟩, h2, -⟩ := bind_eq_ok.mp h
      obtain ⟨⟨tf, fs'⟩, h3, -⟩ := bind_eq_ok.mp h2
      exact parts_defined _ _ _ _ _ _ h3
    · rename_i hb
      rw [if_neg hb]; exact ⟨_, rfl⟩
  · rename_i hn
    rw [if_neg hn]; exact ⟨_, rfl⟩

theorem router_defined {env : Env} {st st1 : St} {ev : List Event} (h : router_handle_request env st = ok (st1, ev)) :
    ∃ ms, router_msgs env st.req = ok ms := by
  unfold router_handle_request at h
  unfold router_msgs
  obtain ⟨m, h1, h⟩ := bind_eq_ok.mp h
  obtain ⟨⟨hd, f, form⟩, h2, -⟩ := bind_eq_ok.mp h
  rw [h1, ok_bind, h2, ok_bind]
  dsimp only
  cases hd <;> exact ⟨_, rfl⟩

theorem trim_defined {v w : Buf} (h : trim v = ok w) : ∃ s, cstr v = ok s := by
  unfold trim at h
  obtain ⟨s, h1, -⟩ := bind_eq_ok.mp h
  exact ⟨s, h1⟩

theorem header_defined {hs hs' : List Header} {line : Str} (h : storeHeader hs line = ok hs') : ∃ ms, header_msgs hs line = ok ms := by
  unfold storeHeader at h
  unfold header_msgs
  split at h
  · rename_i hn
    rw [if_pos hn]
    obtain ⟨nv, h1, h⟩ := bind_eq_ok.mp h
    rw [h1, ok_bind]
    split at h
    · obtain ⟨a, h2, h⟩ := bind_eq_ok.mp h
      obtain ⟨b, -, h⟩ := bind_eq_ok.mp h
      obtain ⟨c, h3, h⟩ := bind_eq_ok.mp h
      obtain ⟨s, h4⟩ := trim_defined h3
      simp only [h2, ok_bind, h4]
      exact ⟨_, rfl⟩
    · rename_i hno
      split
      · exact absurd rfl (hno _ _)
      · exact ⟨_, rfl⟩
  · rename_i hn
    rw [if_neg hn]; exact ⟨_, rfl⟩

theorem headerLoop_defined : ∀ (n k : Nat) (h h' : HdrSt), headerLoop n k h = ok h' → ∃ ms, headerLoopMsgs n k h = ok ms
  | 0, _, _, _, _ => ⟨_, rfl⟩
  | n + 1, k, h, h', hm => by
    unfold headerLoop at hm
    unfold headerLoopMsgs
    obtain ⟨line, h1, hm⟩ := bind_eq_ok.mp hm
    rw [h1, ok_bind]
    split at hm
    · rename_i hc
      rw [if_pos hc]
      obtain ⟨h2, hs, hm⟩ := bind_eq_ok.mp hm
      obtain ⟨⟨k', buf, inp⟩, hg, hm⟩ := bind_eq_ok.mp hm
      obtain ⟨more, hmore⟩ := headerLoop_defined n _ _ _ hm
      have hs' := hs
      unfold headerStep at hs'
      rw [h1, ok_bind] at hs'
      obtain ⟨hs2, h3, -⟩ := bind_eq_ok.mp hs'
      obtain ⟨ms, h4⟩ := header_defined h3
      rw [h4, ok_bind, hs, ok_bind, hg, ok_bind]
      dsimp only
      rw [hmore, ok_bind]
      exact ⟨_, rfl⟩
    · rename_i hc
      rw [if_neg hc]; exact ⟨_, rfl⟩

theorem section_defined {buf : Buf} {input : List Byte} {ip : Str} {h : HdrSt} (hp : parseHeaders buf input ip = ok h) :
    ∃ ms, section_msgs buf input ip = ok ms := by
  unfold parseHeaders at hp
  unfold section_msgs
  obtain ⟨b1, h1, hp⟩ := bind_eq_ok.mp hp
  obtain ⟨b2, h2, hp⟩ := bind_eq_ok.mp hp
  obtain ⟨⟨k, buf', inp⟩, h3, hp⟩ := bind_eq_ok.mp hp
  rw [h1, ok_bind, h2, ok_bind, h3, ok_bind]
  exact headerLoop_defined _ _ _ _ hp

theorem dispatch_defined {env : Env} {st st1 : St} {url : Str} {n : Int} {b : Str} {ev : List Event}
    (h : dispatch env st url n b = ok (st1, ev)) (hs : ∃ s, cstr st.req.session = ok s) : ∃ ms, dispatch_msgs env st url n b = ok ms := by
  obtain ⟨s, hs⟩ := hs
  unfold dispatch at h
  unfold dispatch_msgs
  obtain ⟨⟨path, query⟩, h1, h⟩ := bind_eq_ok.mp h
  rw [h1, ok_bind]
  dsimp only at h ⊢
  split at h
  · rename_i hu
    rw [if_pos hu]
    split at h
    · rename_i hg
      rw [if_pos hg]
      obtain ⟨st2, h2, -⟩ := bind_eq_ok.mp h
      exact static_defined h2
    · rename_i hg
      rw [if_neg hg]; exact ⟨_, rfl⟩
  · rename_i hu
    rw [if_neg hu]
    obtain ⟨p, h2, h⟩ := bind_eq_ok.mp h
    rw [h2, ok_bind]
    unfold handle_api_request at h
    unfold api_msgs
    obtain ⟨st2, h3, h⟩ := bind_eq_ok.mp h
    obtain ⟨rs, h4⟩ := router_defined h
    obtain ⟨ms, h5⟩ := form_defined h3
    rw [hs, ok_bind]
    dsimp only
    rw [h5, ok_bind, h3, ok_bind, h4, ok_bind]
    exact ⟨_, rfl⟩

/-- Every request that is handled without fault has its messages. -/
theorem accept_defined {env : Env} {st st' : St} {socket : Nat} {peer : Str} {ev : List Event}
    (h : accept_request env st socket peer = ok (st', ev)) : ∃ ms, accept_msgs env st socket peer = ok ms := by
  obtain ⟨hp, hh⟩ := accept_request_cases h
  unfold accept_msgs
  rw [fmtInto_ok hp, ok_bind]
  dsimp only
  obtain ⟨line, rest, hl, -⟩ := get_line_first st.input
  obtain ⟨lines, after, hsec⟩ := section_exists rest
  have key : ∀ {buf : Buf} {inp rl m : Str} {j : Nat}, readRequestLine st.input = ok (buf, inp, rl, m, j) →
      buf = (lineBytes line).map some ∧ inp = rest ∧ ∃ s, cstr buf = ok s := by
    intro buf inp rl m j hr
    obtain ⟨e1, e2, -⟩ := readRequestLine_break hl hr
    exact ⟨e1, e2, untilNul line, by rw [e1]; exact cstr_lineBytes hl.2.1 (untilNul_before line)⟩
  cases hh with
  | badMethod buf inp rl method j st1 hr hm h1 =>
    obtain ⟨-, -, s, hs⟩ := key hr
    rw [hr, ok_bind]
    dsimp only
    rw [hs, ok_bind, hm, ok_bind]
    exact ⟨_, rfl⟩
  | tooMany buf inp rl method j url live st1 hr hm hurl hadd h1 =>
    obtain ⟨-, -, s, hs⟩ := key hr
    rw [hr, ok_bind]
    dsimp only
    rw [hs, ok_bind, hm, ok_bind]
    simp only [Bool.not_true, Bool.false_eq_true, if_false]
    rw [hurl, ok_bind]
    dsimp only [api_request_new]
    rw [hadd, ok_bind]
    exact ⟨_, rfl⟩
  | served buf inp rl method j url live hd st1 ev hr hm hurl hadd hh h1 =>
    obtain ⟨e1, e2, s, hs⟩ := key hr
    rw [hr, ok_bind]
    dsimp only
    rw [hs, ok_bind, hm, ok_bind]
    simp only [Bool.not_true, Bool.false_eq_true, if_false]
    rw [hurl, ok_bind]
    dsimp only [api_request_new]
    rw [hadd, ok_bind]
    dsimp only
    simp only [Bool.not_true, Bool.false_eq_true, if_false]
    obtain ⟨m4, h4⟩ := section_defined hh
    have hsess : ∃ s, cstr hd.session = ok s := by
      rw [e1, e2] at hh
      obtain ⟨b1, a, b2⟩ := lineBytes_buf hl.2.1
      obtain ⟨last, -, -, -, -, -, -, -, -, k8, r, k9, -⟩ := parse_fields (lineBuf_of b1 (by rw [b2]; simp)) hsec hh
      exact ⟨_, cstr_eq_ok.mpr ⟨k8, r.map some, by rw [k9]; simp⟩⟩
    obtain ⟨m5, h5⟩ := dispatch_defined h1 hsess
    rw [h4, ok_bind, hh, ok_bind]
    exact ⟨_, bind_eq_ok.mpr ⟨m5, h5, rfl⟩⟩

end Wayuu
