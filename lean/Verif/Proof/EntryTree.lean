import Verif.Proof.Entries
/-!
# Proof.EntryTree — what paths see of a container depends only on its kind and entries
-/

namespace Jin
open Spec

theorem valAt_entries (w : Json) (n : Nat) : valAt w n = w.entries[n]?.map Entry.val := by
  cases w <;> simp [valAt, Json.entries, Function.comp_def, Entry.val]

theorem slot_arr {w : Json} (h : w.kind = .arr) (q : Text) : w.slot? q = (readIndex q).filter (· < w.entries.length) := by
  cases w <;> simp [Json.kind] at h
  simp [Json.slot?, Json.entries]

theorem slot_obj {w : Json} (h : w.kind = .obj) (q : Text) : w.slot? q = w.entries.findIdx? (fun e => e.key == some q) := by
  cases w <;> simp [Json.kind] at h
  simp only [Json.slot?, Json.entries, memberIdx, List.findIdx?_map]
  congr 1

theorem slot_lt {w : Json} {q : Text} {n : Nat} (h : w.slot? q = some n) : n < w.entries.length := by
  cases hk : w.kind with
  | scalar => cases w <;> simp [Json.kind] at hk <;> simp [Json.slot?] at h
  | arr => rw [slot_arr hk, Option.filter_eq_some_iff] at h; simpa using h.2
  | obj => rw [slot_obj hk] at h; rw [List.findIdx?_eq_some_iff_getElem] at h; exact h.1

theorem size_entries (w : Json) : w.size = w.entries.length := by cases w <;> simp [Json.size, Json.entries]

theorem get_cons_eq (w : Json) (q : Text) (qs : List Text) :
    w.get? (q :: qs) = (w.slot? q).bind fun n => (w.entries[n]?.map Entry.val).bind fun c => c.get? qs := by
  rw [Json.get?, child_slot]
  cases w.slot? q with
  | none => rfl
  | some n => simp [valAt_entries]

/-- Reading after a change below `p` along a path that leaves at the last step of `p ++ [q]`
or earlier. -/
theorem get_upd_parent {f : Json → Json} {q : Text} (p : List Text) : ∀ {q2 : List Text} {j w : Json},
    j.get? p = some w → j.diverge (p ++ [q]) q2 →
    (∀ r rs, w.diverge [q] (r :: rs) → (f w).get? (r :: rs) = w.get? (r :: rs)) →
    (j.upd f p).get? q2 = j.get? q2 := by
  induction p with
  | nil =>
    intro q2 j w h hd hf
    simp only [Json.get?, Option.some.injEq] at h; subst h
    cases q2 with
    | nil => simp [Json.diverge] at hd
    | cons r rs => exact hf r rs hd
  | cons x p ih =>
    intro q2 j w h hd hf
    cases q2 with
    | nil => simp [Json.diverge] at hd
    | cons r rs =>
      obtain ⟨a, b, ha, hb, hab⟩ := diverge_cons hd
      obtain ⟨c, hc, hw⟩ := get_cons h
      obtain ⟨n, hn, hv⟩ := child_some hc
      obtain rfl : n = a := by rw [ha] at hn; exact (Option.some.inj hn).symm
      rw [Json.upd, updChild_slot ha, Json.get?, Json.get?, child_slot, child_slot, slot_updAt, hb, Option.bind_some, Option.bind_some]
      rcases hab with hab | ⟨rfl, c', hc', hd'⟩
      · rw [valAt_updAt_ne hab]
      · rw [valAt_updAt_same hc', hc', Option.bind_some, Option.bind_some]
        obtain rfl : c = c' := by rw [hv] at hc'; exact Option.some.inj hc'
        exact ih hw hd' hf

theorem modify_drop {α : Type} (l : List α) (n : Nat) (f : α → α) : (l.modify n f).drop (n + 1) = l.drop (n + 1) := by
  apply List.ext_getElem?
  intro i
  simp only [List.getElem?_drop, List.getElem?_modify]
  have : ¬ n = n + 1 + i := by omega
  simp only [this, if_false]
  cases l[n + 1 + i]? <;> rfl

/-- `missOk` looks at the entries of the object and at what follows it. -/
theorem missOk_congr {j x y z : Json} {p : List Text} (h : j.get? p = some z) (he : x.entries = y.entries) :
    (j.set p x).missOk p = (j.set p y).missOk p := by
  rcases List.eq_nil_or_concat p with rfl | ⟨p, q, rfl⟩
  · simp only [Json.missOk, Json.set, Json.upd, List.getLast?_nil, he]
  · rw [List.concat_eq_append] at *
    rw [get_append, Option.bind_eq_some_iff] at h
    obtain ⟨u, hu, hz⟩ := h
    obtain ⟨c, hc, -⟩ := get_cons hz
    obtain ⟨n, hn, hv⟩ := child_some hc
    have key : ∀ x : Json, (j.set (p ++ [q]) x).missOk (p ++ [q]) =
        (u.entries.drop (n + 1)).all fun e => if x.size = 0 then e.plain else e.narrow := by
      intro x
      have h1 : (j.set (p ++ [q]) x).get? p = some (updAt u n fun _ => x) := by
        rw [Json.set, upd_append, get_upd p hu]
        simp only [Json.upd, updChild_slot hn]
      have h2 : (j.set (p ++ [q]) x).get? (p ++ [q]) = some x := by
        rw [get_append, h1, Option.bind_some, Json.get?, child_slot, slot_updAt, hn, Option.bind_some, valAt_updAt_same hv]
        rfl
      simp only [Json.missOk, List.getLast?_concat, List.dropLast_concat, h1, h2]
      congr 1
      simp only [Json.later, slot_updAt, hn]
      cases u <;> simp only [updAt, Json.entries, ← List.map_drop, modify_drop]
    rw [key, key, size_entries, size_entries, he]

end Jin
