import Verif.Proof.AddIns
/-!
# Proof.Commas — no JSON text has a comma, white space and a comma outside its strings
-/

namespace Jin
open Spec

/-- Outside strings, with a comma as the last byte other than white space or not; in a string, behind a backslash or not; two commas seen. -/
inductive CState where
  | out (comma : Bool)
  | ins (esc : Bool)
  | dead
deriving DecidableEq, Repr

def cstep : CState → UInt8 → CState
  | .dead, _ => .dead
  | .ins true, _ => .ins false
  | .ins false, c => if c = 34 then .out false else if c = 92 then .ins true else .ins false
  | .out b, c => if c = 34 then .ins false else if isWs c then .out b else if c = 44 then (if b then .dead else .out true) else .out false

def crun (s : CState) (t : Text) : CState := t.foldl cstep s

theorem crun_append (s : CState) (a b : Text) : crun s (a ++ b) = crun (crun s a) b := List.foldl_append
theorem crun_cons (s : CState) (c : UInt8) (b : Text) : crun s (c :: b) = crun (cstep s c) b := rfl
theorem crun_nil (s : CState) : crun s [] = s := rfl

theorem crun_dead (t : Text) : crun .dead t = .dead := by
  induction t with
  | nil => rfl
  | cons c t ih => rw [crun_cons]; exact ih

theorem crun_ws {b : Bool} {t : Text} (h : Ws t) : crun (.out b) t = .out b := by
  induction t with
  | nil => rfl
  | cons c t ih =>
    simp only [Ws, List.all_cons, Bool.and_eq_true] at h
    rw [crun_cons, cstep, if_neg (isWs_ne h.1).1, if_pos h.1]
    exact ih h.2

theorem crun_str : ∀ raw, strOk raw → ∀ t, crun (.ins false) (raw ++ 34 :: t) = crun (.out false) t := by
  refine strOk_ind ?_ ?_ ?_
  · intro t; rfl
  · intro b r _ ih t
    rw [List.cons_append, List.cons_append, crun_cons, crun_cons]
    exact ih t
  · intro c r h1 h2 _ ih t
    rw [List.cons_append, crun_cons, cstep, if_neg h2, if_neg h1]
    exact ih t

theorem crun_tok {c : UInt8} (b : Bool) (h : tokByte c = true) : cstep (.out b) c = .out false := by
  obtain ⟨h1, h2, -, h4, -⟩ := tokByte_ne h
  rw [cstep, if_neg h2, h1, if_neg (by simp), if_neg h4]

theorem crun_toks : ∀ {t : Text}, t.all tokByte → crun (.out false) t = .out false
  | [], _ => rfl
  | c :: t, h => by
    simp only [List.all_cons, Bool.and_eq_true] at h
    rw [crun_cons, crun_tok _ h.1]
    exact crun_toks h.2

mutual
theorem crun_value : ∀ (v : Json), v.wf → ∀ b, crun (.out b) v.render = .out false
  | .lit [], h, _ => by simp [Json.wf] at h
  | .lit (c :: t), h, b => by
    simp only [Json.wf, List.all_cons, Bool.and_eq_true] at h
    rw [Json.render, crun_cons, crun_tok _ h.2.1]
    exact crun_toks h.2.2
  | .str raw, h, b => by
    rw [Json.render, crun_cons]
    exact crun_str raw h []
  | .arr g [], h, b => by
    rw [wf_arr] at h
    rw [Json.render, if_pos (by rfl), crun_cons, crun_append, show cstep (.out b) 91 = .out false from rfl, crun_ws h.1]
    rfl
  | .arr g (e :: es), h, b => by
    rw [wf_arr] at h
    rw [Json.render, if_neg (by simp), crun_cons, crun_append, show cstep (.out b) 91 = .out false from rfl, crun_elems _ h.2 (by simp)]
    rfl
  | .obj g [], h, b => by
    rw [wf_obj] at h
    rw [Json.render, if_pos (by rfl), crun_cons, crun_append, show cstep (.out b) 123 = .out false from rfl, crun_ws h.1]
    rfl
  | .obj g (m :: ms), h, b => by
    rw [wf_obj] at h
    rw [Json.render, if_neg (by simp), crun_cons, crun_append, show cstep (.out b) 123 = .out false from rfl, crun_members _ h.2 (by simp)]
    rfl
theorem crun_elems : ∀ (es : List (Elem Json)), wfElems es → es ≠ [] → ∀ b, crun (.out b) (renderElems es) = .out false
  | [], _, h, _ => absurd rfl h
  | ⟨l, v, r⟩ :: es, h, _, b => by
    rw [wfElems_cons] at h
    rw [renderElems, crun_append, crun_ws h.1, crun_append, crun_value v h.2.1, crun_append, crun_ws h.2.2.1]
    split
    · rfl
    · rename_i hne
      rw [crun_cons]
      exact crun_elems es h.2.2.2 (by simpa using hne) true
theorem crun_members : ∀ (ms : List (Member Json)), wfMembers ms → ms ≠ [] → ∀ b, crun (.out b) (renderMembers ms) = .out false
  | [], _, h, _ => absurd rfl h
  | ⟨l, k, m, l2, v, r⟩ :: ms, h, _, b => by
    rw [wfMembers_cons] at h
    obtain ⟨h1, h2, h3, h4, h5, h6, h7⟩ := h
    rw [renderMembers, crun_append, crun_ws h1, crun_cons, show cstep (.out b) 34 = .ins false from rfl, crun_str k h2, crun_append, crun_ws h3, crun_cons,
      show cstep (.out false) 58 = .out false from rfl, crun_append, crun_ws h4, crun_append, crun_value v h5, crun_append, crun_ws h6]
    split
    · rfl
    · rename_i hne
      rw [crun_cons]
      exact crun_members ms h7 (by simpa using hne) true
end

theorem crun_doc {d : Doc} (h : d.wf) : crun (.out false) d.render = .out false := by
  obtain ⟨h1, h2, h3⟩ := doc_wf.1 h
  rw [Doc.render, crun_append, crun_ws h1, crun_append, crun_value _ h2, crun_ws h3]

/-- The text in front of a value that can be replaced by every other one is outside strings. -/
theorem crun_front {A B : Text} (h : ∀ y : Json, y.wf → ∃ d : Doc, d.wf ∧ d.render = A ++ (y.render ++ B)) : ∃ b, crun (.out false) A = .out b := by
  obtain ⟨d, hd, hr⟩ := h (.arr [] [⟨[], .str [], []⟩, ⟨[], .str [44, 44], []⟩]) (by decide)
  have := crun_doc hd
  rw [hr, crun_append, crun_append] at this
  cases hs : crun (.out false) A with
  | out b => exact ⟨b, rfl⟩
  | ins e =>
    rw [hs] at this
    cases e <;>
      · rw [show crun _ (Json.arr [] [⟨[], .str [], []⟩, ⟨[], .str [44, 44], []⟩]).render = .dead by decide, crun_dead] at this
        cases this
  | dead => rw [hs, crun_dead, crun_dead] at this; cases this

/-- `Insert` before the last of several elements when white space precedes it: the new text goes in front of the last byte of that white space. -/
theorem InPlace.insert_last {d : Doc} {p : List Text} {w : Json} {A l x r B : Bytes} {b : UInt8} {i : Int} {A' B' : Bytes}
    (h : InPlace d.render (p ++ [itoa i]) w A (l ++ [b]) x r B 44 93) (hk : w.kind = .arr)
    (hcs : containerSpan d.render 91 93 .arrayExpected p = .ok (A'.length, B'.length))
    (hbr : bracketsAt d.render 91 93 A'.length B'.length = .ok true) (v : Bytes) :
    Insert d.render i v p = .done (A ++ (44 :: (l ++ (44 :: (v ++ (b :: (x ++ (r ++ (93 :: B))))))))) none := by
  obtain ⟨ks, s, e, h1, h2, h3⟩ := h.found
  have hks := h3 hk
  subst hks
  simp only [beq_self_eq_true, if_true] at h2
  obtain ⟨g1, g2, g3⟩ := h.edges (by decide) (by decide)
  unfold Insert
  rw [hcs]
  simp only [Mut.bindOut, hbr, Bool.not_true, Bool.false_eq_true, if_false, h1, h2, g1, idx_nat g2, idx_nat g3]
  rw [if_neg (by decide), if_neg (by decide), if_pos (by decide)]
  rw [replace_split (A := A ++ (44 :: l)) (m := []) (B := b :: (x ++ (r ++ (93 :: B)))) (by rw [h.text]; simp) (by simp; omega) (by simp; omega)]
  simp [Mut.ofOut]

theorem crun_ents {xs : List REnt} (hf : ∀ x ∈ xs, Ws x.l ∧ Ws x.r ∧ ∃ v : Json, x.e = .elem v ∧ v.wf) (h : xs ≠ []) :
    ∀ b, crun (.out b) (renderEnt (xs.map REnt.ent)) = .out false := by
  induction xs with
  | nil => exact absurd rfl h
  | cons x xs ih =>
    intro b
    obtain ⟨h1, h2, v, h3, h4⟩ := hf x (by simp)
    rw [List.map_cons, renderEnt_cons, REnt.ent, crun_append, crun_ws h1, crun_append, h3, Entry.text, crun_value v h4, crun_append, crun_ws h2]
    by_cases hx : xs = []
    · simp [hx, tailEnt_nil, crun_nil]
    · rw [tailEnt_ne (by simpa using hx), crun_cons]
      exact ih (fun y hy => hf y (List.mem_cons_of_mem _ hy)) hx true

/-- … which is not the text of any document. -/
theorem insert_last {d : Doc} {p : List Text} {g : Text} {es : List (Elem Json)} {n : Nat} {e : Elem Json} (hd : d.wf)
    (h : d.get? p = some (.arr g es)) (hn : n + 1 = es.length) (h0 : n ≠ 0) (hb : (n : Int) ≤ 9223372036854775807) (he : es[n]? = some e) (hl : e.l ≠ [])
    (v : Bytes) : ∃ A B l b, e.l = l ++ [b] ∧ d.render = A ++ (44 :: (e.l ++ (e.v.render ++ B))) ∧
      Insert d.render n v p = .done (A ++ (44 :: (l ++ (44 :: (v ++ (b :: (e.v.render ++ B))))))) none ∧
      ∀ d' : Doc, d'.wf → d'.render ≠ A ++ (44 :: (l ++ (44 :: (v ++ (b :: (e.v.render ++ B)))))) := by
  have hidx : readIndex (itoa n) = some n := by
    unfold readIndex
    rw [readInt_itoa (by omega) hb]
  have hq : (Json.arr g es).slot? (itoa n) = some n := by simp [Json.slot?, hidx, show n < es.length by omega]
  obtain ⟨A, B, xs, x, ys, h1, h2, h3, h4, hw, hcon, hpl⟩ := entry_place_open (opens_of_wf hd) h hq
  obtain ⟨xs', x', ys', r1, rfl, rfl, rfl⟩ := rents_split h3
  have hxl : xs'.length = n := by simpa using h4
  have hyl : ys' = [] := by
    have := congrArg List.length r1
    simp [rents] at this
    exact List.eq_nil_of_length_eq_zero (by omega)
  have hxn : xs' ≠ [] := by rintro rfl; exact h0 (by simpa using hxl.symm)
  have hx : x' = ⟨e.l, .elem e.v, e.r⟩ := by
    have := congrArg (fun l => l[n]?) r1
    simp only [rents, List.getElem?_map, he, Option.map_some] at this
    rw [List.getElem?_append_right (by omega), hxl] at this
    simpa using this.symm
  subst hx hyl
  obtain ⟨l, b, hlb⟩ : ∃ l b, e.l = l ++ [b] := by
    rcases List.eq_nil_or_concat e.l with h | ⟨l, b, h⟩
    · exact absurd h hl
    · exact ⟨l, b, by simpa using h⟩
  have hall := rents_all (w := .arr g es) rfl hw
  rw [r1] at hall
  obtain ⟨A2, B2, -, -, -, c3, c4, -⟩ := containerSpan_ok_open (opens_of_wf hd) (fun _ => (doc_wf.1 hd).2.2) h rfl .arrayExpected
  simp only [opnOf, clsOf] at c3 c4
  rw [show A2.length + (Json.arr g es).render.length = (A2 ++ (Json.arr g es).render).length by simp] at c3 c4
  have hne : xs'.map REnt.ent ≠ [] := by simpa using hxn
  simp only [hne, if_false, List.map_nil, if_true, opnOf, clsOf, REnt.ent, Entry.text] at hpl
  have htx := hpl.text
  rw [hlb] at hpl
  refine ⟨A ++ (91 :: renderEnt (xs'.map REnt.ent)), e.r ++ (93 :: B), l, b, hlb, ?_, ?_, ?_⟩
  · rw [htx]
  · rw [hpl.insert_last rfl c3 c4 v]
  · intro d' hd' hr
    have hfin := crun_doc hd'
    obtain ⟨s, hs⟩ := crun_front (A := A) (B := B) fun y hy => ⟨d.set p y, doc_upd_wf (f := fun _ => y) hd h hy, h2 fun _ => y⟩
    have hl' : Ws l := by
      have := (hall ⟨e.l, .elem e.v, e.r⟩ (by simp)).2.1
      rw [hlb] at this
      exact (ws_append.1 this).1
    have hx : ∀ x ∈ xs', Ws x.l ∧ Ws x.r ∧ ∃ v : Json, x.e = .elem v ∧ v.wf := by
      intro x hx
      obtain ⟨f1, f2, f3, f4⟩ := hall x (by simp [hx])
      refine ⟨f2, f3, ?_⟩
      cases hxe : x.e with
      | elem v => rw [hxe] at f4; exact ⟨v, rfl, by simpa [Entry.ok] using f4⟩
      | member k m l2 v => rw [hxe] at f1; cases f1
    rw [hr, crun_append, crun_append, hs, crun_cons (.out s), show cstep (.out s) 91 = .out false from rfl, crun_ents hx hxn, crun_cons,
      show cstep (.out false) 44 = .out true from rfl, crun_append, crun_ws hl', crun_cons, show cstep (.out true) 44 = .dead from rfl, crun_dead] at hfin
    cases hfin

end Jin
