import Verif.Proof.Edges
import Verif.Model.Iter
/-!
# Proof.Clean — trimming and unquoting the text of one value
-/

namespace Jin
open Spec

/-- The last byte of a value is not whitespace. -/
theorem render_last_ns {v : Json} (h : v.wf) : ∃ c, v.render[v.render.length - 1]? = some c ∧ isWs c = false := by
  have hne := render_ne_nil h
  refine ⟨v.render.getLast hne, by rw [← List.getLast?_eq_getElem?, List.getLast?_eq_some_getLast hne], ?_⟩
  cases v with
  | lit t =>
    simp only [Json.wf, Bool.and_eq_true, List.all_eq_true] at h
    simp only [render_lit]
    exact (tokByte_ne (h.2 _ (List.getLast_mem _))).1
  | str t => simp only [render_str, ← List.cons_append, List.getLast_concat]; decide
  | arr g es => simp only [render_arr, ← List.cons_append, List.getLast_concat]; decide
  | obj g es => simp only [render_obj, ← List.cons_append, List.getLast_concat]; decide

theorem Seg.last_ns {json : Bytes} {i : Nat} {v : Json} (hv : v.wf) (h : Seg json i v.render) :
    ∃ c, json[i + v.render.length - 1]? = some c ∧ isWs c = false := by
  obtain ⟨c, h1, h2⟩ := render_last_ns hv
  have : 0 < v.render.length := List.length_pos_iff.2 (render_ne_nil hv)
  refine ⟨c, ?_, h2⟩
  rw [show i + v.render.length - 1 = i + (v.render.length - 1) by omega]
  exact h.getElem? h1

theorem Seg.len {json s : Bytes} {i : Nat} (h : Seg json i s) (hs : s ≠ []) : i + s.length ≤ json.length := by
  have := h.length_le
  rw [List.length_drop] at this
  have : 0 < s.length := List.length_pos_iff.2 hs
  omega

/-- Unquoting the text of a value in place. -/
theorem unquote_seg {s : Bytes} {i : Nat} {v : Json} (hv : v.wf) (h : Seg s i v.render) :
    unquoteSlice s i (i + v.render.length - 1) = .ok v.content := by
  have hpos : 0 < v.render.length := List.length_pos_iff.2 (render_ne_nil hv)
  have hlen := h.len (render_ne_nil hv)
  have hf := h.first hv
  unfold unquoteSlice
  rw [idx_nat hf]
  simp only [Out.bind_ok]
  have plain : v.first ≠ 34 → v.content = v.render → (if (v.first == 34) = true then do
        let b ← idx s ((i + v.render.length - 1 : Nat) : Int)
        if (b == 34) = true then slice s ((i : Int) + 1) ((i + v.render.length - 1 : Nat) : Int) else slice s i (((i + v.render.length - 1 : Nat) : Int) + 1)
      else slice s i (((i + v.render.length - 1 : Nat) : Int) + 1)) = .ok v.content := by
    intro h1 h2
    rw [if_neg (by simpa using h1), h2]
    rw [show (((i + v.render.length - 1 : Nat) : Int) + 1) = ((i + v.render.length : Nat) : Int) by omega]
    exact slice_seg h rfl hlen
  cases v with
  | str raw =>
    rw [render_str, seg_cons, seg_append, seg_cons] at h
    have e : i + (Json.str raw).render.length - 1 = i + 1 + raw.length := by simp; omega
    rw [e, idx_nat h.2.2.1]
    simp only [first_str, Out.bind_ok, beq_self_eq_true, if_true]
    have := slice_seg h.2.1 rfl (by rw [render_str] at hlen; simp at hlen; omega)
    exact_mod_cast this
  | lit t => exact plain (tokByte_ne (first_lit hv)).2.1 rfl
  | arr g es => exact plain (by rw [first_arr]; decide) rfl
  | obj g ms => exact plain (by rw [first_obj]; decide) rfl

/-- A value with whitespace around it. -/
theorem padded_seg (l : Bytes) (v : Json) (r : Bytes) :
    Seg (l ++ (v.render ++ r)) 0 l ∧ Seg (l ++ (v.render ++ r)) l.length v.render ∧
      Seg (l ++ (v.render ++ r)) (l.length + v.render.length) r := by
  have := seg_self (l ++ (v.render ++ r))
  rw [seg_append, seg_append] at this
  simpa using this

/-- `cleanValue` trims and unquotes. -/
theorem cleanValue_ok {l r : Bytes} {v : Json} (hl : Ws l) (hv : v.wf) (hr : Ws r) :
    cleanValue (l ++ (v.render ++ r)) = .ok v.content := by
  obtain ⟨h1, h2, h3⟩ := padded_seg l v r
  have hpos : 0 < v.render.length := List.length_pos_iff.2 (render_ne_nil hv)
  have hlen : (l ++ (v.render ++ r)).length = l.length + v.render.length + r.length := by simp; omega
  have hf := h2.first hv
  obtain ⟨c, hc, hns⟩ := h2.last_ns hv
  have e1 : (firstNS (l ++ (v.render ++ r)) 0 ((l ++ (v.render ++ r)).length - 1)).getD ((l ++ (v.render ++ r)).length - 1) = l.length := by
    by_cases hlt : l.length < (l ++ (v.render ++ r)).length - 1
    · rw [firstNS_ws h1 hl (by simpa using hf) (first_ns hv) (by simpa using hlt)]; simp
    · rw [firstNS_none h1 hl (by omega)]; simp only [Option.getD_none]; omega
  have e2 : (lastNS (l ++ (v.render ++ r)) (l.length + 1) (l ++ (v.render ++ r)).length).getD l.length = l.length + v.render.length - 1 := by
    have := lastNS_ws (lo := l.length + 1) hc hns r (by rw [show l.length + v.render.length - 1 + 1 = l.length + v.render.length by omega]; exact h3) hr (by omega)
    rw [hlen, show l.length + v.render.length + r.length = l.length + v.render.length - 1 + 1 + r.length by omega, this]
    split
    · simp only [Option.getD_none]; omega
    · simp
  unfold cleanValue
  rw [if_neg (by simp; intro _ h; exact absurd h (render_ne_nil hv))]
  simp only [e1, e2]
  exact unquote_seg hv h2

theorem cvsUp_ws {s w : Bytes} {c : UInt8} : ∀ {i : Nat}, Seg s i w → Ws w → s[i + w.length]? = some c → isWs c = false →
    cvsUp s i = i + w.length := by
  induction w with
  | nil =>
    intro i _ _ hc hs
    simp only [List.length_nil, Nat.add_zero] at hc ⊢
    rw [cvsUp.eq_def]
    split
    · rfl
    · rename_i c' hc'
      rw [hc] at hc'
      cases hc'
      rw [if_neg (by simp [space_eq, hs])]
  | cons b w ih =>
    intro i h hw hc hs
    rw [seg_cons] at h
    rw [ws_cons, Bool.and_eq_true] at hw
    simp only [List.length_cons] at hc ⊢
    rw [cvsUp.eq_def]
    split
    · rename_i hn; rw [h.1] at hn; cases hn
    · rename_i c' hc'
      rw [h.1] at hc'
      cases hc'
      have := lt_of_getElem? hc
      rw [if_pos (by simp [space_eq, hw.1]; omega), ih h.2 hw.2 (by rw [← hc]; congr 1; omega) hs]
      omega

theorem cvsDown_ws {s : Bytes} {c : UInt8} {i : Nat} (hc : s[i]? = some c) (hs : isWs c = false) (w : Bytes) :
    Seg s (i + 1) w → Ws w → (i = 0 → w = []) → cvsDown s (i + w.length) = i := by
  induction hn : w.length generalizing w with
  | zero =>
    intro _ _ _
    cases i with
    | zero => rfl
    | succ n => simp only [Nat.add_zero]; rw [cvsDown, hc]; simp [space_eq, hs]
  | succ n ih =>
    intro h hw hi
    rcases List.eq_nil_or_concat w with rfl | ⟨w, b, rfl⟩
    · simp at hn
    rw [List.concat_eq_append] at *
    obtain rfl : w.length = n := by simpa using hn
    rw [seg_append, seg_cons] at h
    have hw' : Ws w ∧ isWs b := by simpa [Ws] using hw
    have hi' : i ≠ 0 := fun e => by simpa using hi e
    rw [← Nat.add_assoc, cvsDown, show i + w.length + 1 = i + 1 + w.length by omega, h.2.1]
    simp only [space_eq, hw'.2, Bool.true_and, decide_eq_true_eq]
    rw [if_pos (by omega)]
    exact ih w rfl h.1 hw'.1 (fun e => absurd e hi')

/-- `cleanValueString` trims and unquotes, except that whitespace after a one-byte value
that nothing precedes is not all removed. -/
theorem cleanValueString_ok {l r : Bytes} {v : Json} (hl : Ws l) (hv : v.wf) (hr : Ws r)
    (hsnug : l = [] → v.render.length = 1 → r = []) :
    cleanValueString (l ++ (v.render ++ r)) = .ok v.content := by
  obtain ⟨h1, h2, h3⟩ := padded_seg l v r
  have hpos : 0 < v.render.length := List.length_pos_iff.2 (render_ne_nil hv)
  have hlen : (l ++ (v.render ++ r)).length = l.length + v.render.length + r.length := by simp; omega
  have hf := h2.first hv
  obtain ⟨c, hc, hns⟩ := h2.last_ns hv
  unfold cleanValueString
  rw [if_neg (by simp; intro _ h; exact absurd h (render_ne_nil hv))]
  rw [cvsUp_ws h1 hl (by simpa using hf) (first_ns hv)]
  have := cvsDown_ws hc hns r (by rw [show l.length + v.render.length - 1 + 1 = l.length + v.render.length by omega]; exact h3) hr
    (fun e => hsnug (List.eq_nil_iff_length_eq_zero.2 (by omega)) (by omega))
  rw [hlen, show l.length + v.render.length + r.length - 1 = l.length + v.render.length - 1 + r.length by omega, this, Nat.zero_add]
  exact unquote_seg hv h2

theorem cvsDown_min {s : Bytes} (w : Bytes) : Seg s 1 w → Ws w → w ≠ [] → cvsDown s w.length = 1 := by
  induction hn : w.length generalizing w with
  | zero => intro _ _ h; exact absurd (List.eq_nil_iff_length_eq_zero.2 hn) h
  | succ n ih =>
    intro h hw _
    rcases List.eq_nil_or_concat w with rfl | ⟨w, b, rfl⟩
    · simp at hn
    rw [List.concat_eq_append] at *
    obtain rfl : w.length = n := by simpa using hn
    rw [seg_append, seg_cons] at h
    have hw' : Ws w ∧ isWs b := by simpa [Ws] using hw
    rw [cvsDown, show w.length + 1 = 1 + w.length by omega, h.2.1]
    simp only [space_eq, hw'.2, Bool.true_and, decide_eq_true_eq]
    by_cases he : w = []
    · subst he; simp
    · have := List.length_pos_iff.2 he
      rw [if_pos (by omega)]
      exact ih w rfl h.1 hw'.1 he

/-- What `cleanValueString` makes of a value with whitespace around it: a one-byte value
with nothing before it keeps the first whitespace byte after it. -/
def cvsSeen (l : Text) (v : Json) (r : Text) : Text :=
  if l = [] ∧ v.render.length = 1 then v.render ++ r.take 1 else v.content

theorem one_byte {v : Json} (hv : v.wf) (h : v.render.length = 1) : v.content = v.render ∧ v.first ≠ 34 := by
  cases v with
  | lit t => exact ⟨rfl, (tokByte_ne (first_lit hv)).2.1⟩
  | str t => simp at h
  | arr g es => simp [render_arr] at h
  | obj g ms => simp [render_obj] at h

theorem cvsSeen_snug {l r : Bytes} {v : Json} (hv : v.wf) (h : l = [] → v.render.length = 1 → r = []) :
    cvsSeen l v r = v.content := by
  unfold cvsSeen
  split
  · rename_i h1
    rw [h h1.1 h1.2, (one_byte hv h1.2).1]; simp
  · rfl

theorem cleanValueString_eq {l r : Bytes} {v : Json} (hl : Ws l) (hv : v.wf) (hr : Ws r) :
    cleanValueString (l ++ (v.render ++ r)) = .ok (cvsSeen l v r) := by
  by_cases h : l = [] → v.render.length = 1 → r = []
  · rw [cleanValueString_ok hl hv hr h, cvsSeen_snug hv h]
  · have h' : l = [] ∧ v.render.length = 1 ∧ r ≠ [] := by
      refine ⟨?_, ?_, ?_⟩ <;> (apply Classical.byContradiction; intro hh; apply h; intro a b; first | exact absurd a hh | exact absurd b hh | exact Classical.not_not.1 hh)
    obtain ⟨rfl, h1, h2⟩ := h'
    obtain ⟨-, g2, g3⟩ := padded_seg [] v r
    simp only [List.nil_append, List.length_nil, Nat.zero_add] at g2 g3 ⊢
    obtain ⟨b, r, rfl⟩ := List.exists_cons_of_ne_nil h2
    rw [cvsSeen, if_pos ⟨rfl, h1⟩]
    unfold cleanValueString
    rw [if_neg (by simp)]
    rw [cvsUp_ws (w := []) (Seg.nil _ _) rfl (g2.first hv) (first_ns hv)]
    rw [h1] at g3
    have := cvsDown_min _ g3 hr (by simp)
    rw [show (v.render ++ b :: r).length - 1 = (b :: r).length by simp [h1], this]
    unfold unquoteSlice
    simp only [List.length_nil, Nat.add_zero]
    rw [idx_nat (g2.first hv)]
    simp only [Out.bind_ok]
    rw [if_neg (by simpa using (one_byte hv h1).2)]
    obtain ⟨c, hc⟩ := List.length_eq_one_iff.1 h1
    rw [hc]
    simp [slice]
    omega

end Jin
