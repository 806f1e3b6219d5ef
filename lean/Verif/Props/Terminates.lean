import Verif.Lemmas.Terminates
import Verif.Props.Limits
/-
C81: the loops that run until the data says so come to an end, for every input.
-/
namespace Wayuu
open C Spec

/-- C81, header section: whatever bytes a client sends, the header loop ends. -/
theorem C81_headers (buf b0 b1 b2 : Buf) (input inp : List Byte) (ip : Str) (k : Nat) (h0 : buf.store 0 65 = ok b0)
    (h1 : b0.store 1 0 = ok b1) (h2 : get_line input b1 1024 = ok (k, b2, inp)) :
    Ends headerRound (k, ⟨b2, inp, [], none, [], -1, ip, calloc MAX_SESSION⟩) (parseHeaders buf input ip) := by
  unfold parseHeaders
  simp only [h0, h1, h2, ok_bind]
  have := get_line_consumes h2
  exact headerLoop_ends _ _ _ (by simp only; omega)

example : Ends headerRound (9, ⟨b!"Host: a\r\n".map some ++ some 0 :: (calloc 1024).drop 10, b!"\r\nrest", [], none, [], -1,
      b!"10.0.0.1", calloc MAX_SESSION⟩)
    (parseHeaders (calloc 1024) b!"Host: a\r\n\r\nrest" b!"10.0.0.1") :=
  C81_headers (calloc 1024) (some 65 :: calloc 1023) (some 65 :: calloc 1023) _ _ _ _ _ (by decide +kernel) (by decide +kernel) (by decide +kernel)

/-- C81, forms: whatever the body, the boundary and the files already there, the loop over the parts ends. -/
theorem C81_form (env : Env) (fs : FS) (form : Buf) (boundary : Str) (len : Nat) :
    ∃ r, Ends (partRound env form boundary len) (0, calloc (len + 1), calloc (len + 1), fs) r ∧
      multipart_parse env fs form boundary len = r >>= (fun x => do
        let t ← cstr x.1
        let form ← strcpyAt form 0 t
        ok (form, x.2)) :=
  ⟨_, partsLoop_ends env form boundary len (len + 1) 0 _ _ fs (by omega), rfl⟩

/-- C81, streamed responses. -/
theorem C81_stream (st : St) (content : Str) :
    ∃ r, Ends streamRound (st, 0, content) r ∧ send_stream st content = r >>= (fun x => do
      let st ← http_print x.2 CRLF CRLF.length
      let len ← addInt x.1 CRLF.length
      ok (len, st)) :=
  ⟨_, streamLoop_ends (content.length + 1) st 0 content (by omega), rfl⟩

/-- C81, configuration files. -/
theorem C81_conf (fs : FS) (path content : Str) (flags : KeyFlags) (h : fs.openRead path = some content) :
    Ends (confRound path flags) (content, []) (parse fs path flags) := by
  unfold parse
  rw [FS.fopenRead_of_openRead h]
  exact parseLoop_ends path flags _ content [] (by omega)

/-- C81, limits: the loop over the lines of the file, and for each line the loop over its fields. -/
theorem C81_limits (fs : FS) (root content : Str) (path : Str) (h1 : fmtInto (ROOT_PATH_MAX + 32) (root ++ b!"/etc/limits") = ok path)
    (h2 : fs.openRead path = some content) :
    Ends limitRound (content, [], ⟨[], 0, 0, 0⟩) (load_limits fs root) ∧
    ∀ (r : PathLimit) (s : Str), Ends fieldRound (r, s, 1) (ok (limitFields 4 r s 1)) := by
  refine ⟨?_, fun r s => limitFields_ends 4 r s 1 (by omega) (by omega)⟩
  unfold load_limits
  rw [h1, ok_bind, h2]
  exact limitsLoop_ends _ content [] _ (by omega)

example : Ends limitRound (b!"/api,20,2,10\n# none\n/,5,1\n", [], ⟨[], 0, 0, 0⟩)
    (load_limits (limitsFile b!"/api,20,2,10\n# none\n/,5,1\n") []) :=
  (C81_limits (limitsFile b!"/api,20,2,10\n# none\n/,5,1\n") [] _ b!"/etc/limits" (by decide +kernel) (by decide +kernel)).1

/-- C81, strings: `split`, `rtrim` and `md5sum`. -/
theorem C81_strings (str delim : Str) (sep : Byte) (data : Buf) (off : Nat) (len : Int) :
    Ends (splitRound delim) (str, []) (split str delim) ∧
    (∃ r, Ends (rtrimRound sep) (strdup str, 0) r ∧ rtrim str sep = r >>= cstr) ∧
    Ends (md5Round data) ([], off, len) (md5Feed data len.toNat off len) := by
  refine ⟨splitLoop_ends delim _ str [] (by omega), ⟨_, rtrimLoop_ends sep (str.length + 1) (strdup str) 0 (by omega) (by simp [strdup]), rfl⟩, ?_⟩
  have := md5Feed_ends data len.toNat off [] len (by omega)
  simp only [List.nil_append] at this
  cases h : md5Feed data len.toNat off len with
  | ub f => rw [h] at this; exact this
  | ok r => rw [h] at this; exact this

/-- C81, request line: skipping white space before the URL. -/
theorem C81_url (buf : Buf) (j : Nat) :
    ∃ r, Ends (spaceRound buf) j r ∧ readUrl buf j = r >>= (fun j => do
      let x ← scanWord buf 254 j
      ok (untilNul x.1)) :=
  ⟨_, spaces_ends buf (buf.length + 1) j (by omega) (by omega), rfl⟩

/-- C81, routes: the scan for the parameter of a template. -/
theorem C81_route (template : Str) (hn : NulFree template) (he : template ≠ []) (tmp : Buf)
    (h : (strdup template).storeI ((template.length : Int) - 1) 0 = ok tmp) :
    Ends (resolveRound tmp) 0 (resolveScan tmp (template.length + 1) 0) := by
  obtain ⟨t, c, rfl⟩ : ∃ t c, template = t ++ [c] := ⟨_, _, (List.dropLast_append_getLast he).symm⟩
  have e : tmp = t.map some ++ some 0 :: [some 0] := by
    have e1 : ((t ++ [c]).length : Int) - 1 = (t.length : Int) := by simp
    rw [e1] at h
    unfold Buf.storeI at h
    rw [if_neg (by omega)] at h
    simp only [Int.toNat_natCast, strdup, List.map_append, List.map_cons, List.map_nil, List.append_assoc, List.cons_append, List.nil_append] at h
    rw [store_append_cons (by simp)] at h
    exact (ok.inj h).symm
  subst e
  exact resolve_ends _ 0 (by omega) (by simp)

example : ∃ tmp, Ends (resolveRound tmp) 0 (resolveScan tmp 14 0) :=
  ⟨_, C81_route b!"GET:/item/{id}".dropLast (by decide) (by decide) _ rfl⟩

end Wayuu
