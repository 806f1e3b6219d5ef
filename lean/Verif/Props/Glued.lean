import Verif.Props.Headers
import Verif.Lemmas.More
/-
C44, lines without a blank after the colon (ws.c:592-595).
-/
namespace Wayuu
open C Spec

/-- C44, what really happens without the space: the first digit of the (last) length is not looked at. What is read is the number that the
others form, nothing at all if there are no others. -/
theorem C44_glued (env : Env) (st : St) (bs input body : List Byte) (before after : List (List Byte)) (line name v tail : List Byte) (ip : Str)
    (h : HdrSt) (hb : bs.length = 1024) (hz : bs.getLast? = some 0) (hsec : Section input (before ++ line :: after) body)
    (hline : BeforeNul line (name ++ 58 :: (v ++ tail))) (hname : CaseEq name b!"Content-Length") (hne : v ≠ []) (hd : ∀ c ∈ v, digit c)
    (htail : ∀ c ∈ tail, ws c = true) (hafter : ∀ l ∈ after, ∀ t, BeforeNul l t → ¬ CasePrefix b!"Content-Length:" t)
    (hlt : decimal v.tail < 2 ^ 31) (hle : decimal v.tail ≤ body.length) (hok : parseHeaders (bs.map some) input ip = ok h) :
    ∃ st', readForm env { st with input := h.input } h.content_length [] = ok st' ∧ st'.input = body.drop (decimal v.tail) ∧ st'.fs = st.fs ∧
      st'.req.form = if decimal v.tail = 0 then st.req.form else (body.take (decimal v.tail)).map some ++ [some 0] := by
  obtain ⟨last, h1, -, -, -, -, -, h2, -⟩ := parse_fields (lineBuf_of hb hz) hsec hok
  obtain ⟨c, v, rfl⟩ := List.exists_cons_of_ne_nil hne
  have hll := hsec.length_le
  have hnl : name.length = 14 := by
    have := congrArg List.length hname
    simpa using this
  have hnw : ∀ c : Byte, digit c → ws c = false := by
    intro c
    have key : ∀ n : Fin 256, 48 ≤ (UInt8.ofNat n.val).toNat ∧ (UInt8.ofNat n.val).toNat ≤ 57 →
      ws (UInt8.ofNat n.val) = false := by decide +kernel
    have := key ⟨c.toNat, c.toNat_lt⟩
    simpa [digit] using this
  have e : h.content_length = decimal v := by
    rw [h2]
    show ((before ++ line :: after).foldl Head.step (.init bs ip)).clen = _
    rw [List.foldl_append, List.foldl_cons]
    have hb0 : LineBuf (before.foldl Head.step (.init bs ip)).bs :=
      LineBuf.foldl ((lineBuf_of hb hz).load (line := [65]) (by decide)) (fun l hl => hll l (by simp [hl]))
    have hl1 := hll line (by simp)
    have key : ∀ (ls : List (List Byte)) (a : Head), LineBuf a.bs → (∀ l ∈ ls, l.length ≤ 1023) →
        (∀ l ∈ ls, ∀ t, BeforeNul l t → ¬ CasePrefix b!"Content-Length:" t) → (ls.foldl Head.step a).clen = a.clen := by
      intro ls
      induction ls with
      | nil => intros; rfl
      | cons l ls ih =>
        intro a ha hl hn
        rw [List.foldl_cons, ih _ (ha.step (hl l (by simp))) (fun l' h' => hl l' (by simp [h'])) (fun l' h' => hn l' (by simp [h']))]
        refine (step_clen a l ha (hl l (by simp))).2 fun w hw => ?_
        exact hn l (by simp) _ (untilNul_before l) ((startswith_iff _ _).mp ((fieldLine_startswith (name := b!"Content-Length")).mp ⟨w, hw⟩))
    rw [key after _ (hb0.step hl1) (fun l hl => hll l (by simp [hl])) hafter]
    show nextLength _ (loadLine _ line) = _
    have e := beforeNul_eq hline
    unfold nextLength
    rw [untilNul_loadLine, ← e]
    have hs : startswith (name ++ 58 :: (c :: v ++ tail)) b!"Content-Length:" = true := by
      rw [startswith_iff]
      exact ⟨name ++ [58], c :: v ++ tail, by simp, by
        show (name ++ [58]).map lower = _
        rw [List.map_append, show name.map lower = _ from hname]
        rfl⟩
    rw [if_pos hs, (hb0.load hl1).tail (by rw [untilNul_loadLine, ← e]; simp; omega), untilNul_loadLine, ← e,
      show name ++ 58 :: (c :: v ++ tail) = (name ++ [58, c]) ++ (v ++ tail) by simp, drop_at (by simp; omega)]
    cases v with
    | nil => exact atoi_blank htail
    | cons x v =>
      refine atoi_digits ⟨[], tail, rfl, by simp, htail, ?_, ?_⟩ (by simp) (fun c hc => hd c (List.mem_cons_of_mem _ hc)) hlt
      · exact fun y hy => hnw y (hd y (List.mem_cons_of_mem _ (List.mem_of_mem_head? hy)))
      · exact fun y hy => hnw y (hd y (List.mem_cons_of_mem _ (List.mem_of_getLast? hy)))
  rw [e, h1]
  simp only [List.tail_cons] at hlt hle ⊢
  by_cases h0 : decimal v = 0
  · simp only [h0]
    exact ⟨_, if_neg (by decide), rfl, rfl, rfl⟩
  · have := readForm_plain env { st with input := body } _ (Nat.pos_of_ne_zero h0) [] (by decide) hle
    exact ⟨_, this, rfl, rfl, by simp [h0]⟩

/-- `Content-Length:12`: two bytes are read. -/
example (h : HdrSt) (hok : parseHeaders ((lineBytes b!"POST /api/a HTTP/1.1\r\n").map some) b!"Content-Length:12\r\n\r\nhello, world"
    b!"10.0.0.1" = ok h) : ∃ st', readForm sampleEnv { sampleSt with input := h.input } h.content_length [] = ok st' ∧
      cstr st'.req.form = ok b!"he" ∧ st'.input = b!"llo, world" := by
  obtain ⟨st', h1, h2, -, h4⟩ := C44_glued sampleEnv sampleSt _ _ _ [] [] b!"Content-Length:12\r\n" b!"Content-Length" b!"12" b!"\r\n" b!"10.0.0.1"
    h (by decide +kernel) (by decide +kernel)
    (one_line_section (line := b!"Content-Length:12\r\n") (by decide) (by decide) (by decide) (by decide) (by decide) b!"hello, world")
    ⟨by decide, Or.inl rfl⟩ rfl (by decide) (by unfold digit; decide) (by decide) (by simp) (by decide) (by decide) hok
  exact ⟨st', h1, by rw [h4]; decide, h2⟩

end Wayuu
