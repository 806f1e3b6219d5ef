import Verif.Props.Conf
/-
C21 from the constructor on: what is given to `new_conf_item_with_values`, put into a settings object, written and read back.
-/
namespace Wayuu
open C Spec

namespace Spec

/-- A setting as a program states it: key, value, elements. -/
abbrev Setting := List Byte × List Byte × List (List Byte)

/-- Its text: the value, or the elements separated by commas if there are any. -/
def Setting.text (s : Setting) : List Byte := if s.2.2 = [] then s.2.1 else sepBy [44] s.2.2

end Spec

/-- An item whose value is the list of its elements. -/
def listed (c : ConfItem) : ConfItem := if c.multi = [] then c else { c with value := ⟨true, sepBy [44] c.multi⟩ }

theorem toString_listed (c : ConfItem) : conf_item_to_string (listed c) = conf_item_to_string c := by
  unfold listed
  split
  · rfl
  · rename_i h
    unfold conf_item_to_string
    rw [if_neg (by simpa using h), if_neg (by simpa using h)]

theorem confText_listed (cs : List ConfItem) : confText (cs.map listed) = confText cs := by
  induction cs with
  | nil => rfl
  | cons c cs ih => simp only [List.map_cons, confText, toString_listed, ih]

theorem owned_listed {c : ConfItem} (h : c.Owned) : (listed c).Owned := by
  unfold listed
  split
  · exact h
  · exact ⟨h.1, fun _ => rfl⟩

theorem write_listed {fs : FS} {path : Str} {cs : List ConfItem} (h : ∀ c ∈ cs, c.Owned) :
    write_conf fs ⟨⟨true, path⟩, cs.map listed⟩ = write_conf fs ⟨⟨true, path⟩, cs⟩ := by
  unfold write_conf
  simp only [confText_listed, free_serializable]
  rw [freeItems_owned cs h, freeItems_owned (cs.map listed) (by
    intro c hc
    obtain ⟨d, hd, rfl⟩ := List.mem_map.mp hc
    exact owned_listed (h d hd))]

/-- C21 from the constructor on: up to 20 settings, each given to `new_conf_item_with_values`, then to `new_serializable` and `write_conf`;
`parse` hands exactly these settings to the handler, in order. (If a setting has elements, its value is not written; what is read is the
list of the elements.) -/
theorem C21_values (fs : FS) (path : Str) (settings : List Setting) (flags : KeyFlags) (p : List Str)
    (hopen : fs.openWrite path = some p) (hread : fs.canRead p = true) (hpath : path.length ≤ 86) (hn : settings.length ≤ 20)
    (hset : ∀ s ∈ settings, CleanItem s.1 s.text s.2.2 ∧ s.1.length + s.text.length + 1 ≤ 510 ∧
      ∃ f, flags.find? (fun f => f.1 = s.1) = some f ∧ f.2 = decide (s.2.2 ≠ [])) :
    ∃ items ser fs' calls, List.Forall₂ (fun s it => new_conf_item_with_values s.1 s.2.1 s.2.2 = ok it) settings items ∧
      new_serializable ⟨true, path⟩ items = ok ser ∧ write_conf fs ser = ok (0, fs') ∧ parse fs' path flags = ok (0, calls) ∧
      calls.map (fun it => (it.key.s, it.value.s, it.multi)) = settings.map (fun s => (s.1, s.text, s.2.2)) := by
  have h1 : ∃ items, List.Forall₂ (fun s it => new_conf_item_with_values s.1 s.2.1 s.2.2 = ok it) settings items ∧
      items.map (fun it => (it.key.s, it.value.s, it.multi)) = settings ∧ ∀ it ∈ items, it.Owned := by
    clear hn
    induction settings with
    | nil => exact ⟨[], .nil, rfl, by simp⟩
    | cons s r ih =>
      obtain ⟨items, g1, g2, g3⟩ := ih (fun x hx => hset x (by simp [hx]))
      obtain ⟨k, v, ms⟩ := s
      have hm := (hset (k, v, ms) (by simp)).1.2.2.2.1
      simp only at hm
      obtain ⟨it, hi, he⟩ : ∃ it, new_conf_item_with_values k v ms = ok it ∧ (it.key.s, it.value.s, it.multi) = (k, v, ms) := by
        unfold new_conf_item_with_values
        rw [if_neg (by simpa using hm)]
        refine ⟨_, rfl, ?_⟩
        by_cases hv : v = [] <;> simp [hv]
      refine ⟨it :: items, .cons hi g1, ?_, ?_⟩
      · rw [List.map_cons, g2, he]
      · intro x hx
        rcases List.mem_cons.mp hx with rfl | hx
        · exact ConfHeap.owned_values _ _ _ _ hi
        · exact g3 x hx
  obtain ⟨items, a1, a2, a3⟩ := h1
  have hmem : ∀ it : ConfItem, (it.key.s, it.value.s, it.multi) ∈ settings ↔
      (it.key.s, it.value.s, it.multi) ∈ items.map (fun it => (it.key.s, it.value.s, it.multi)) := by rw [a2]; simp
  have hlen : items.length = settings.length := by rw [← a2]; simp
  obtain ⟨cs, b1, b2, b3⟩ := serItems_eq items 0 (by show 0 + items.length ≤ 20; omega) fun it hit =>
    ⟨a3 it hit, (hset _ ((hmem it).mpr (List.mem_map_of_mem (f := fun it : ConfItem => (it.key.s, it.value.s, it.multi)) hit))).1.2.2.2.1⟩
  have b4 : cs.map (fun it => (it.key.s, it.value.s, it.multi)) = settings := b3.trans a2
  have hl : ∀ c : ConfItem, ((listed c).key.s, (listed c).value.s, (listed c).multi) =
      (fun s : Setting => (s.1, s.text, s.2.2)) (c.key.s, c.value.s, c.multi) := by
    intro c
    unfold listed Setting.text
    split
    · rename_i h; simp [h]
    · rename_i h; simp [h]
  have b5 : (cs.map listed).map (fun it => (it.key.s, it.value.s, it.multi)) = settings.map (fun s => (s.1, s.text, s.2.2)) := by
    rw [← b4, List.map_map, List.map_map]
    exact List.map_congr_left fun c _ => hl c
  obtain ⟨fs', calls, c1, c2, c3⟩ := C21_write_parse fs path (cs.map listed) flags p hopen hread hpath (fun x hx => by
    obtain ⟨c, hc, rfl⟩ := List.mem_map.mp hx
    have hm : (c.key.s, c.value.s, c.multi) ∈ settings := by
      rw [← b4]; exact List.mem_map_of_mem (f := fun it : ConfItem => (it.key.s, it.value.s, it.multi)) hc
    obtain ⟨q1, q2, q3⟩ := hset _ hm
    have e := hl c
    simp only [Prod.mk.injEq] at e
    obtain ⟨e1, e2, e3⟩ := e
    rw [e1, e2, e3]
    exact ⟨q1, owned_listed (b2 c hc), q2, q3⟩)
  rw [write_listed b2] at c1
  refine ⟨items, ⟨⟨true, path⟩, cs⟩, fs', calls, a1, ?_, c1, c2, c3.trans b5⟩
  unfold new_serializable
  rw [b1]
  rfl

/-- Two settings: a value, and elements with a value that is not written. -/
example : ∃ items ser fs' calls, List.Forall₂ (fun (s : Setting) it => new_conf_item_with_values s.1 s.2.1 s.2.2 = ok it)
      [(b!"name", b!"x", []), (b!"tags", [], [b!"a", b!"b"])] items ∧
    new_serializable ⟨true, b!"/f"⟩ items = ok ser ∧ write_conf (oneFile []) ser = ok (0, fs') ∧
    parse fs' b!"/f" [(b!"tags", true), (b!"name", false)] = ok (0, calls) ∧
    calls.map (fun it => (it.key.s, it.value.s, it.multi)) = [(b!"name", b!"x", []), (b!"tags", b!"a,b", [b!"a", b!"b"])] := by
  have hclean : ∀ s ∈ [b!"name", b!"x", b!"tags", b!"a,b", b!"a", b!"b"], Clean s := by
    intro s hs
    simp only [List.mem_cons, List.not_mem_nil, or_false] at hs
    rcases hs with rfl | rfl | rfl | rfl | rfl | rfl <;>
      exact ⟨⟨[], [], by decide, by decide, by decide, by decide, by decide⟩, by decide, by decide, by decide⟩
  refine C21_values (oneFile []) b!"/f" _ _ [b!"f"] (by decide) (by decide) (by decide) (by decide) ?_
  intro s hs
  simp only [List.mem_cons, List.not_mem_nil, or_false] at hs
  rcases hs with rfl | rfl
  · exact ⟨⟨hclean _ (by simp), by decide, hclean b!"x" (by decide), by decide, by simp⟩, by decide, _, rfl, by decide⟩
  · refine ⟨⟨hclean _ (by simp), by decide, hclean b!"a,b" (by decide), by decide, fun _ => ⟨by decide, ?_⟩⟩, by decide, _, rfl, by decide⟩
    intro m hm
    simp only [List.mem_cons, List.not_mem_nil, or_false] at hm
    rcases hm with rfl | rfl
    · exact ⟨hclean _ (by decide), by decide, by decide⟩
    · exact ⟨hclean _ (by decide), by decide, by decide⟩

end Wayuu
