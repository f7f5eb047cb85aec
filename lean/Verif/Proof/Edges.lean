import Verif.Proof.MissKey
import Verif.Model.Set
/-!
# Proof.Edges — an entry of a container in place, and what surrounds it
-/

namespace Jin
open Spec

theorem firstNS_ws {json w : Bytes} {c : UInt8} {hi : Nat} : ∀ {i : Nat}, Seg json i w → Ws w →
    json[i + w.length]? = some c → space c = false → i + w.length < hi → firstNS json i hi = some (i + w.length) := by
  induction w with
  | nil =>
    intro i _ _ hc hs hl
    simp only [List.length_nil, Nat.add_zero] at hc hl ⊢
    rw [firstNS, if_pos hl, hc]; simp [hs]
  | cons b w ih =>
    intro i h hw hc hs hl
    rw [seg_cons] at h
    rw [ws_cons, Bool.and_eq_true] at hw
    simp only [List.length_cons] at hc hl ⊢
    rw [firstNS, if_pos (by omega), h.1]
    simp only [space_eq, hw.1, if_true]
    rw [ih h.2 hw.2 (by rw [show i + 1 + w.length = i + (w.length + 1) by omega]; exact hc) hs (by omega)]
    congr 1; omega

theorem firstNS_none {json w : Bytes} {hi : Nat} : ∀ {i : Nat}, Seg json i w → Ws w → hi ≤ i + w.length →
    firstNS json i hi = none := by
  induction w with
  | nil => intro i _ _ hl; rw [firstNS, if_neg (by simpa using hl)]
  | cons b w ih =>
    intro i h hw hl
    rw [seg_cons] at h
    rw [ws_cons, Bool.and_eq_true] at hw
    simp only [List.length_cons] at hl
    rw [firstNS]
    split
    · rw [h.1]; simp only [space_eq, hw.1, if_true]; exact ih h.2 hw.2 (by omega)
    · rfl

theorem lastNS_ws {json : Bytes} {c : UInt8} {lo i : Nat} (hc : json[i]? = some c) (hs : space c = false) (w : Bytes) :
    Seg json (i + 1) w → Ws w → lo ≤ i + 1 → lastNS json lo (i + 1 + w.length) = if i < lo then none else some i := by
  induction hn : w.length generalizing w with
  | zero =>
    intro _ _ _
    simp only [Nat.add_zero]
    rw [lastNS, hc]; simp [hs]
  | succ n ih =>
    intro h hw hl
    rcases List.eq_nil_or_concat w with rfl | ⟨w, b, rfl⟩
    · simp at hn
    rw [List.concat_eq_append] at *
    obtain rfl : w.length = n := by simpa using hn
    rw [seg_append, seg_cons] at h
    have hw' : Ws w ∧ isWs b := by simpa [Ws] using hw
    rw [← Nat.add_assoc, lastNS, if_neg (by omega), h.2.1]
    simp only [space_eq, hw'.2, if_true]
    exact ih w rfl h.1 hw'.1 hl

theorem idx_nat {json : Bytes} {i : Nat} {c : UInt8} (h : json[i]? = some c) : idx json (i : Int) = .ok c := by
  unfold idx at?
  rw [if_neg (by omega)]
  simp [h]

theorem idx_pred {json : Bytes} {i : Nat} {c : UInt8} (h0 : 0 < i) (h : json[i - 1]? = some c) : idx json ((i : Int) - 1) = .ok c := by
  rw [show (i : Int) - 1 = ((i - 1 : Nat) : Int) by omega]; exact idx_nat h

/-- The byte before a position that whitespace separates from `c`. -/
theorem before_ws {json l : Bytes} {i : Nat} {c : UInt8} (hl : Ws l) (h : Seg json (i + 1) l) (hc : json[i]? = some c)
    (hq : c ≠ 34) : ∃ b, json[i + l.length]? = some b ∧ b ≠ 34 := by
  cases hl' : l.length with
  | zero => exact ⟨c, by simpa using hc, hq⟩
  | succ n =>
    have hn : n < l.length := by omega
    refine ⟨l[n], ?_, ?_⟩
    · have := h.getElem? (j := n) (c := l[n]) (by simp [hn])
      rw [← this]; congr 1; omega
    · simp only [Ws, List.all_eq_true] at hl
      exact (isWs_ne (hl _ (List.getElem_mem hn))).1

/-- The byte after a position that whitespace separates from `c`. -/
theorem after_ws {json r : Bytes} {i : Nat} {c : UInt8} (hr : Ws r) (h : Seg json i r) (hc : json[i + r.length]? = some c)
    (hq : c ≠ 34) : ∃ b, json[i]? = some b ∧ b ≠ 34 := by
  cases r with
  | nil => exact ⟨c, by simpa using hc, hq⟩
  | cons b r =>
    rw [seg_cons] at h
    rw [ws_cons, Bool.and_eq_true] at hr
    exact ⟨b, h.1, (isWs_ne hr.1).1⟩

theorem widen_elem {json : Bytes} {i : Nat} {v : Json} {a b : UInt8} (hs : Seg json i v.render) (h0 : 0 < i)
    (ha : json[i - 1]? = some a) (ha' : a ≠ 34) (hb : json[i + v.render.length]? = some b) (hb' : b ≠ 34) :
    widen json (span i v).1 (span i v).2 = .ok (i, i + v.render.length) := by
  have plain : widen json i (i + v.render.length) = .ok (i, i + v.render.length) := by
    unfold widen
    rw [idx_pred h0 ha, idx_nat hb]
    simp [ha', hb']
  cases v with
  | str raw =>
    rw [render_str, seg_cons, seg_append, seg_cons] at hs
    unfold widen
    simp only [span]
    rw [idx_pred (by omega) (by simpa using hs.1), idx_nat hs.2.2.1]
    simp; omega
  | lit t => exact plain
  | arr g es => exact plain
  | obj g ms => exact plain

theorem widen_member {json : Bytes} {i j : Nat} {v : Json} {a b : UInt8} (hs : Seg json j v.render) (h0 : 0 < i)
    (ha : json[i - 1]? = some a) (ha' : a ≠ 34) (hb : json[j + v.render.length]? = some b) (hb' : b ≠ 34) :
    widen json i (span j v).2 = .ok (i, j + v.render.length) := by
  have plain : widen json i (j + v.render.length) = .ok (i, j + v.render.length) := by
    unfold widen
    rw [idx_pred h0 ha, idx_nat hb]
    simp [ha', hb']
  cases v with
  | str raw =>
    rw [render_str, seg_cons, seg_append, seg_cons] at hs
    unfold widen
    simp only [span]
    rw [idx_pred h0 ha, idx_nat hs.2.2.1]
    simp [ha']; omega
  | lit t => exact plain
  | arr g es => exact plain
  | obj g ms => exact plain

/-- The text of a document around a value, and that value replaced. -/
theorem doc_around_open {d : Doc} {p : List Text} {w : Json} (hd : d.opens) (h : d.get? p = some w) :
    ∃ f A B, findAt d.root p = some f ∧ f.val = w ∧ A.length = d.lead.length + f.pos ∧ d.render = A ++ (w.render ++ B) ∧
      (∀ g : Json → Json, (d.upd g p).render = A ++ ((g w).render ++ B)) ∧ w.wf := by
  obtain ⟨f, hf, rfl, -, hwf⟩ := find_any_open hd h
  obtain ⟨A, B, a1, a2, a3⟩ := find_upd p hf
  refine ⟨f, d.lead ++ A, B ++ d.trail, hf, rfl, by simp [a1], ?_, ?_, hwf⟩
  · simp [Doc.render, a2]
  · intro g; simp [Doc.render, Doc.upd, a3]

theorem doc_around {d : Doc} {p : List Text} {w : Json} (hd : d.wf) (h : d.get? p = some w) :
    ∃ f A B, findAt d.root p = some f ∧ f.val = w ∧ A.length = d.lead.length + f.pos ∧ d.render = A ++ (w.render ++ B) ∧
      (∀ g : Json → Json, (d.upd g p).render = A ++ ((g w).render ++ B)) ∧ w.wf :=
  doc_around_open (opens_of_wf hd) h

/-- An entry in place: `A c l x r c' B` where `c` is the bracket or comma before it and
`c'` the comma or bracket after it, and where `core` finds it. -/
structure InPlace (json : Bytes) (path : List Text) (w : Json) (A l x r B : Bytes) (c c' : UInt8) : Prop where
  text : json = A ++ (c :: (l ++ (x ++ (r ++ (c' :: B)))))
  wl : Ws l
  wr : Ws r
  ne : x ≠ []
  found : ∃ ks s e, core json false path = .ok ⟨ks, s, e⟩ ∧
    widen json (if ks == -1 then s else (ks - 1).toNat) e =
      .ok (A.length + 1 + l.length, A.length + 1 + l.length + x.length) ∧
    (w.kind = .arr → ks = -1)

theorem InPlace.edges {json path w A l x r B c c'} (h : InPlace json path w A l x r B c c') (hc : space c = false) (hc' : space c' = false) :
    Jin.edges json (A.length + 1 + l.length) (A.length + 1 + l.length + x.length) =
      (A.length, A.length + 1 + l.length + x.length + r.length) ∧
    json[A.length]? = some c ∧ json[A.length + 1 + l.length + x.length + r.length]? = some c' := by
  have hs : Seg json 0 (A ++ (c :: (l ++ (x ++ (r ++ (c' :: B)))))) := h.text ▸ seg_self json
  rw [seg_append, seg_cons, seg_append, seg_append, seg_append, seg_cons] at hs
  simp only [Nat.zero_add] at hs
  obtain ⟨-, h1, h2, -, h4, h5, -⟩ := hs
  refine ⟨?_, h1, h5⟩
  unfold Jin.edges
  rw [lastNS_ws h1 hc l h2 h.wl (by omega), firstNS_ws h4 h.wr h5 hc' (lt_of_getElem? h5)]
  split
  · simp only [Option.getD_none, Option.getD_some]; congr 1; omega
  · rfl

/-- Every entry of a container of a document is in place. -/
theorem entry_place_open {d : Doc} {p : List Text} {w : Json} {q : Text} {n : Nat} (hd : d.opens) (h : d.get? p = some w)
    (hq : w.slot? q = some n) : ∃ A B xs e ys, d.render = A ++ (w.render ++ B) ∧
      (∀ g : Json → Json, (d.upd g p).render = A ++ ((g w).render ++ B)) ∧ ents w = xs ++ e :: ys ∧ xs.length = n ∧
      w.wf ∧ w.isContainer ∧
      InPlace d.render (p ++ [q]) w (if xs = [] then A else A ++ (opnOf w :: renderEnt xs)) e.l e.x e.r
        (if ys = [] then B else renderEnt ys ++ (clsOf w :: B)) (if xs = [] then opnOf w else 44) (if ys = [] then clsOf w else 44) := by
  obtain ⟨f, A, B, hf, hv, hA, h1, h2, hw⟩ := doc_around_open hd h
  obtain ⟨xs, e, ys, fc, e1, e2, e3, e4, e5, e6⟩ := child_ent hq
  have hcon : w.isContainer := by cases w <;> simp [Json.slot?] at hq <;> rfl
  have hent := (ents_wf hw).2 e (by simp [e1])
  refine ⟨A, B, xs, e, ys, h1, h2, e1, e2, hw, hcon, ?_⟩
  have hf' : findAt d.root (p ++ [q]) = some (fc.shift f.pos) := by
    rw [findAt_snoc, hf, Option.bind_some, hv, e3]; rfl
  have hcore := core_found_open hd (by simp) hf' false
  have htext : d.render = (if xs = [] then A else A ++ (opnOf w :: renderEnt xs)) ++ ((if xs = [] then opnOf w else 44) ::
      (e.l ++ (e.x ++ (e.r ++ ((if ys = [] then clsOf w else 44) :: (if ys = [] then B else renderEnt ys ++ (clsOf w :: B))))))) := by
    rw [h1, render_container hcon, inner, if_neg (by simp [e1]), e1, renderEnt_split]
    by_cases hx : xs = [] <;> by_cases hy : ys = []
    · simp [hx, hy, sepEnt_nil, tailEnt_nil]
    · simp [hx, hy, sepEnt_nil, tailEnt_ne hy]
    · simp [hx, hy, sepEnt_ne hx, tailEnt_nil]
    · simp [hx, hy, sepEnt_ne hx, tailEnt_ne hy]
  have hlen : (if xs = [] then A else A ++ (opnOf w :: renderEnt xs)).length = A.length + (sepEnt xs).length := by
    by_cases hx : xs = []
    · simp [hx, sepEnt_nil]
    · simp [hx, sepEnt_ne hx]
  refine ⟨htext, hent.1, hent.2.1, hent.2.2, ?_⟩
  have hs : Seg d.render 0 d.render := seg_self _
  conv at hs => arg 3; rw [htext]
  rw [seg_append, seg_cons, seg_append, seg_append, seg_append, seg_cons] at hs
  simp only [Nat.zero_add] at hs
  obtain ⟨-, s1, s2, s3, s4, s5, -⟩ := hs
  rw [hlen] at s1 s2 s3 s4 s5 ⊢
  have hopn := opn_cls (v := w)
  have hc1 : (if xs = [] then opnOf w else 44) ≠ 34 := by
    split
    · rcases hopn.1 with h | h <;> rw [h] <;> decide
    · decide
  have hc2 : (if ys = [] then clsOf w else 44) ≠ 34 := by
    split
    · rcases hopn.2.2 with h | h <;> rw [h] <;> decide
    · decide
  obtain ⟨a, ha, ha'⟩ := before_ws hent.1 s2 s1 hc1
  obtain ⟨b, hb, hb'⟩ := after_ws hent.2.1 s4 s5 hc2
  have hsv : Seg d.render (d.lead.length + (f.pos + fc.pos)) fc.val.render :=
    (find_seg (by simp) hd.2 (doc_seg d) hf').1
  have hend : d.lead.length + (f.pos + fc.pos) + fc.val.render.length =
      A.length + (sepEnt xs).length + 1 + e.l.length + e.x.length := by omega
  have ha2 : d.render[A.length + (sepEnt xs).length + 1 + e.l.length - 1]? = some a := by
    rw [← ha]; congr 1; omega
  refine ⟨_, _, _, hcore, ?_, ?_⟩
  · simp only [Bool.false_eq_true, if_false, Found.shift]
    rcases e6 with ⟨k1, -, k3⟩ | ⟨k1, -⟩
    · have hp : d.lead.length + (f.pos + fc.pos) = A.length + (sepEnt xs).length + 1 + e.l.length := by omega
      rw [k1]
      simp only [Option.map_none, ksOf, beq_self_eq_true, if_true]
      rw [widen_elem hsv (by omega) (by rw [hp]; exact ha2) ha' (by rw [hend]; exact hb) hb', hend, hp]
    · rw [k1]
      have hks : ∀ m : Nat, ((m : Int) == -1) = false := by intro m; rw [beq_eq_false_iff_ne]; omega
      simp only [Option.map_some, ksOf, hks, Bool.false_eq_true, if_false]
      rw [show (((d.lead.length + (f.pos + (1 + (sepEnt xs).length + e.l.length + 1)) : Nat) : Int) - 1).toNat =
        A.length + (sepEnt xs).length + 1 + e.l.length by omega]
      rw [widen_member hsv (by omega) ha2 ha' (by rw [hend]; exact hb) hb', hend]
  · intro hk
    rcases e6 with ⟨k1, -, -⟩ | ⟨-, k2⟩
    · simp [Found.shift, k1, ksOf]
    · rw [hk] at k2; cases k2

theorem entry_place {d : Doc} {p : List Text} {w : Json} {q : Text} {n : Nat} (hd : d.wf) (h : d.get? p = some w)
    (hq : w.slot? q = some n) : ∃ A B xs e ys, d.render = A ++ (w.render ++ B) ∧
      (∀ g : Json → Json, (d.upd g p).render = A ++ ((g w).render ++ B)) ∧ ents w = xs ++ e :: ys ∧ xs.length = n ∧
      w.wf ∧ w.isContainer ∧
      InPlace d.render (p ++ [q]) w (if xs = [] then A else A ++ (opnOf w :: renderEnt xs)) e.l e.x e.r
        (if ys = [] then B else renderEnt ys ++ (clsOf w :: B)) (if xs = [] then opnOf w else 44) (if ys = [] then clsOf w else 44) :=
  entry_place_open (opens_of_wf hd) h hq

end Jin
