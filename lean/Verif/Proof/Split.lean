import Verif.Proof.Clean
import Verif.Proof.Iterate
import Verif.Proof.GetSet
import Verif.Model.Get
/-!
# Proof.Split — the loops that cut an array into its elements
-/

namespace Jin
open Spec

/-- Convert the texts one after the other; stop at the first that fails. -/
def readAll {α : Type} (conv last : Bytes → Out α) : List Bytes → Out (List α)
  | [] => .ok []
  | [t] => (last t).map ([·])
  | t :: ts => (conv t) >>= fun a => (readAll conv last ts).map (a :: ·)

/-- The text of an element with its whitespace. -/
def _root_.Jin.Spec.Elem.padded (e : Elem Json) : Bytes := e.l ++ (e.v.render ++ e.r)

/-- The texts between the brackets and commas of an array. -/
def pieces (g : Bytes) (es : List (Elem Json)) : List Bytes := if es.isEmpty then [g] else es.map Elem.padded

def splitRes {α : Type} : LoopRes (SplitSt α) (Out (List α)) → Out (List α)
  | .ret r => r
  | .done s => .ok s.acc

section
variable {α : Type} {conv last : Bytes → Out α} {val : Bytes}

theorem split_skips (st : Nat) (acc : List α) :
    Skips val (splitBody conv last val) (fun d s => s = ⟨st, false, (d : Int) + 1, acc⟩) where
  tok := by
    rintro i d s c hc ht rfl
    refine ⟨_, ?_, rfl⟩
    rcases ht with ht | ht
    · have := tokByte_ne ht; simp [splitBody, hc, this]
    · have := isWs_ne ht; simp [splitBody, hc, this]
  sep := by
    rintro i d s c hc ht rfl
    refine ⟨_, ?_, rfl⟩
    have : ¬ ((d : Int) + 1 + 1 = 1) := by omega
    rcases ht with rfl | rfl <;> simp [splitBody, hc, this]
  opn := by
    rintro i d s c hc ht rfl
    refine ⟨_, ?_, rfl⟩
    rcases ht with rfl | rfl <;> simp [splitBody, hc]
  cls := by
    rintro i d s c hc ht rfl
    refine ⟨_, ?_, rfl⟩
    have h0 : ¬ ((d : Int) + 1 = 0) := by omega
    rcases ht with rfl | rfl <;> simp [splitBody, hc, h0]
  str := by
    rintro i d s raw hseg hok hp rfl
    refine str_of_jump (F := fun s : SplitSt α => s = ⟨st, false, (d : Int) + 1, acc⟩)
      (G := fun s : SplitSt α => s = ⟨st, true, (d : Int) + 1, acc⟩) ?_ ?_ ?_ ?_ hseg hok rfl
    · rintro i s hc rfl; exact ⟨_, by simp [splitBody, hc], rfl⟩
    · rintro i s c hc h1 h2 rfl; exact ⟨_, by simp [splitBody, hc, h1, h2], rfl⟩
    · rintro i s hc rfl; exact ⟨_, by simp [splitBody, hc], rfl⟩
    · rintro i s hc rfl; exact ⟨_, by simp [splitBody, hc], rfl⟩

/-- At the closing bracket. -/
theorem split_last {st : Nat} {acc : List α} {t : Bytes} (h : Seg val st t) (hc : val[st + t.length]? = some 93) :
    splitRes (forUp val.length (splitBody conv last val) (st + t.length) ⟨st, false, 1, acc⟩) = (readAll conv last [t]).map (acc ++ ·) := by
  have hlt := lt_of_getElem? hc
  have hs : slice val st ((st + t.length : Nat) : Int) = .ok t := slice_seg h rfl (by omega)
  have hb : splitBody conv last val (st + t.length) ⟨st, false, 1, acc⟩ = match last t with
      | .ok a => .brk ⟨st, false, 0, acc ++ [a]⟩
      | .err e => .ret (.err e)
      | .panic => .ret .panic := by
    generalize st + t.length = n at hc hs
    simp [splitBody, hc, hs]
    cases last t <;> rfl
  rw [readAll]
  cases hl : last t with
  | ok a => rw [forUp_brk hlt (s' := ⟨st, false, 0, acc ++ [a]⟩) (by rw [hb, hl])]; rfl
  | err e => rw [forUp_ret hlt (r := .err e) (by rw [hb, hl])]; rfl
  | panic => rw [forUp_ret hlt (r := .panic) (by rw [hb, hl])]; rfl

theorem split_elems : ∀ (es : List (Elem Json)) {st : Nat} {acc : List α}, es ≠ [] → wfElems es → Seg val st (renderElems es ++ [93]) →
    PrevOk val st →
    splitRes (forUp val.length (splitBody conv last val) st ⟨st, false, 1, acc⟩) =
      (readAll conv last (es.map Elem.padded)).map (acc ++ ·)
  | [], _, _, h, _, _, _ => (h rfl).elim
  | ⟨l, v, r⟩ :: es, st, acc, _, hw, hseg, hp => by
    have hr : renderElems (⟨l, v, r⟩ :: es) ++ [93] =
        (l ++ (v.render ++ r)) ++ ((if es.isEmpty then [] else 44 :: renderElems es) ++ [93]) := by
      simp [renderElems]
    rw [hr, seg_append] at hseg
    obtain ⟨h1, h2⟩ := hseg
    simp only [wfElems, Bool.and_eq_true] at hw
    obtain ⟨⟨⟨w1, w2⟩, w3⟩, w4⟩ := hw
    obtain ⟨s', r1, rfl⟩ := (split_skips (conv := conv) (last := last) st acc).padded w1 w2 w3 (d := 0) h1 hp rfl
    have r1' : Run val (splitBody conv last val) st ⟨st, false, 1, acc⟩ (st + (l ++ (v.render ++ r)).length) ⟨st, false, 1, acc⟩ := r1
    unfold Run at r1'
    rw [r1']
    cases es with
    | nil =>
      simp only [List.isEmpty_nil, if_true, List.nil_append, seg_cons] at h2
      exact split_last h1 h2.1
    | cons e es =>
      simp only [List.isEmpty_cons, Bool.false_eq_true, if_false, List.cons_append, seg_cons] at h2
      have hlt := lt_of_getElem? h2.1
      have hs : slice val st ((st + (l ++ (v.render ++ r)).length : Nat) : Int) = .ok (l ++ (v.render ++ r)) := slice_seg h1 rfl (by omega)
      have hb : splitBody conv last val (st + (l ++ (v.render ++ r)).length) ⟨st, false, 1, acc⟩ =
          match conv (l ++ (v.render ++ r)) with
          | .ok a => .next ⟨st + (l ++ (v.render ++ r)).length + 1, false, 1, acc ++ [a]⟩
          | .err e => .ret (.err e)
          | .panic => .ret .panic := by
        have hc := h2.1
        generalize l ++ (v.render ++ r) = t at hs hc
        generalize st + t.length = n at hc hs
        simp [splitBody, hc, hs]
        cases conv t <;> rfl
      rw [List.map_cons, List.map_cons, readAll, ← List.map_cons]
      · rw [show Elem.padded ⟨l, v, r⟩ = l ++ (v.render ++ r) from rfl]
        cases hl : conv (l ++ (v.render ++ r)) with
        | ok a =>
          rw [hl] at hb
          rw [forUp_next hlt hb, split_elems (e :: es) (by simp) w4 h2.2 (prevOk_succ h2.1 (by decide))]
          cases readAll conv last ((e :: es).map Elem.padded) <;> simp [Out.map]
        | err x => rw [hl] at hb; rw [forUp_ret hlt hb]; rfl
        | panic => rw [hl] at hb; rw [forUp_ret hlt hb]; rfl
      · simp

/-- The loop converts the texts of the elements, each with the whitespace around it. -/
theorem split_ok {g : Bytes} {es : List (Elem Json)} (hw : (Json.arr g es).wf) :
    splitRes (forUp (Json.arr g es).render.length (splitBody conv last (Json.arr g es).render) 0 ⟨1, false, 0, []⟩) =
      readAll conv last (pieces g es) := by
  have hs := seg_self (Json.arr g es).render
  generalize hv : (Json.arr g es).render = val at hs
  conv at hs => arg 3; rw [← hv]
  rw [render_arr, seg_cons] at hs
  obtain ⟨h1, h2⟩ := hs
  simp only [Json.wf, Bool.and_eq_true] at hw
  rw [forUp_next (lt_of_getElem? h1) (s' := ⟨1, false, 1, []⟩) (by simp [splitBody, h1])]
  have hid : ∀ x : Out (List α), x.map ([] ++ ·) = x := by intro x; cases x <;> simp [Out.map]
  unfold pieces
  by_cases he : es.isEmpty
  · simp only [he, if_true] at h2 ⊢
    rw [seg_append, seg_cons] at h2
    obtain ⟨s', r1, rfl⟩ := (split_skips (conv := conv) (last := last) 1 []).ws hw.1 (d := 0) h2.1 rfl
    have r1' : Run val (splitBody conv last val) (0 + 1) ⟨1, false, 1, []⟩ (1 + g.length) ⟨1, false, 1, []⟩ := by simpa using r1
    unfold Run at r1'
    rw [r1', split_last h2.1 h2.2.1, hid]
  · simp only [he, Bool.false_eq_true, if_false] at h2 ⊢
    rw [Nat.zero_add, split_elems es (by simpa using he) hw.2 h2 (by simpa using prevOk_succ h1 (by decide)), hid]

end

theorem splitArray_ok {α : Type} {conv last : Bytes → Out α} {g : Bytes} {es : List (Elem Json)} (hw : (Json.arr g es).wf) :
    splitArray conv last (Json.arr g es).render = readAll conv last (pieces g es) := by
  rw [← split_ok hw]
  unfold splitArray splitRes
  split <;> rename_i h <;> simp [h]

theorem arr_bracketed (g : Bytes) (es : List (Elem Json)) :
    bracketed (Json.arr g es).render = true ∧ 2 ≤ (Json.arr g es).render.length := by
  rw [render_arr]
  constructor
  · rw [bracketed, ← List.cons_append, List.getLast?_concat]; simp
  · simp

/-- All conversions succeed. -/
theorem readAll_ok {α : Type} {conv last : Bytes → Out α} {xs : List (Elem Json)} {f : Elem Json → α}
    (h : ∀ e ∈ xs, conv e.padded = .ok (f e) ∧ last e.padded = .ok (f e)) :
    readAll conv last (xs.map Elem.padded) = .ok (xs.map f) := by
  induction xs with
  | nil => rfl
  | cons e xs ih =>
    have h1 := h e List.mem_cons_self
    have h2 := ih fun e he => h e (List.mem_cons_of_mem _ he)
    cases xs with
    | nil => simp [readAll, h1, Out.map]
    | cons e' xs =>
      rw [List.map_cons, List.map_cons, readAll, ← List.map_cons, h2, h1.1]
      · rfl
      · simp

end Jin
