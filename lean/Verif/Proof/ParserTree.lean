import Verif.Proof.Iterate
import Verif.Proof.Seq
import Verif.Spec.Tree
/-!
# Proof.ParserTree — the nodes `pCore` builds
-/

namespace Jin
open Spec

/-! ### The nodes of a value -/

mutual
/-- The node of a value under a label; `l` and `r` are the whitespace around it,
which `pCore` keeps with scalars.  A one-element array of a scalar gets no child. -/
def nodeOf (label l r : Bytes) : Json → Node
  | .lit t => .mk label (l ++ (t ++ r)) []
  | .str t => .mk label (l ++ (34 :: (t ++ [34]) ++ r)) []
  | .arr g es => .mk label (Json.arr g es).render (if lone es then [] else nodesE 0 es)
  | .obj g ms => .mk label (Json.obj g ms).render (nodesM ms)
/-- The nodes of the elements from index `k` on. -/
def nodesE (k : Nat) : List (Elem Json) → List Node
  | [] => []
  | ⟨l, v, r⟩ :: es => nodeOf (itoa k) l r v :: nodesE (k + 1) es
/-- The nodes of the members. -/
def nodesM : List (Member Json) → List Node
  | [] => []
  | ⟨_, key, _, l2, v, r⟩ :: ms => nodeOf key l2 r v :: nodesM ms
end

theorem nodesE_cons (k : Nat) (e : Elem Json) (es) :
    nodesE k (e :: es) = nodeOf (itoa k) e.l e.r e.v :: nodesE (k + 1) es := by cases e; rw [nodesE]
theorem nodesM_cons (m : Member Json) (ms) :
    nodesM (m :: ms) = nodeOf m.key m.l2 m.r m.v :: nodesM ms := by cases m; rw [nodesM]

theorem nodeOf_scalar {label l r : Bytes} {v : Json} (h : v.isContainer = false) :
    nodeOf label l r v = .mk label (l ++ (v.render ++ r)) [] := by
  cases v <;> simp_all [nodeOf, Json.isContainer]

theorem nodeOf_container {label l r : Bytes} {v : Json} (h : v.isContainer) (l' r' : Bytes) :
    nodeOf label l r v = nodeOf label l' r' v := by
  cases v <;> simp_all [nodeOf, Json.isContainer]

/-! ### The loop -/

section
variable {json : Bytes}

theorem pc_quiet {i : Nat} {c : UInt8} {s : PcSt} (hc : json[i]? = some c) (h : isJSONChar true true c = false) :
    pcBody json i s = .next s := by
  simp [pcBody, hc, h]

theorem pc_toks {s : PcSt} {t : Bytes} (ht : ∀ c ∈ t, tokByte c ∨ isWs c) :
    ∀ {i : Nat}, Seg json i t → Run json (pcBody json) i s (i + t.length) s := by
  induction t with
  | nil => intro i _; exact Run.refl
  | cons c t ih =>
    intro i hseg
    rw [seg_cons] at hseg
    exact ((Run.next hseg.1 (pc_quiet hseg.1 (isJSONChar_tok (ht c (by simp))))).trans
      (ih (fun c h => ht c (by simp [h])) hseg.2)).to (by simp; omega)

theorem pc_ws {s : PcSt} {w : Bytes} {i : Nat} (h : Seg json i w) (hw : Ws w) :
    Run json (pcBody json) i s (i + w.length) s :=
  pc_toks (fun c hc => .inr (by simp only [Ws, List.all_eq_true] at hw; exact hw c hc)) h

theorem pc_str {s : PcSt} {i : Nat} {raw : Bytes} (hq : s.inQuote = false) (hseg : Seg json i (34 :: (raw ++ [34])))
    (hok : strOk raw) (hp : PrevOk json i) :
    Run json (pcBody json) i s (i + (raw.length + 2)) { s with start := i + 1, stop := i + (raw.length + 1) } := by
  obtain ⟨s', hr, rfl⟩ := str_of_scan_at (body := pcBody json) (raw := raw) (i := i) (s := s)
    (F := fun a => a = s) (G := fun a => a = { s with inQuote := true, start := i + 1 })
    (F' := fun a => a = { s with start := i + 1, stop := i + (raw.length + 1) })
    (by
      intro hc _ _
      exact ⟨_, by simp [pcBody, hc, isJSONChar, hq], rfl⟩)
    (by
      rintro i' s' c hc hne rfl
      refine ⟨_, ?_, rfl⟩
      simp only [pcBody, hc]
      by_cases h : isJSONChar true true c <;> simp [h, hne])
    (by
      rintro i' s' hc ht h1 rfl
      refine ⟨_, ?_, rfl⟩
      simp [pcBody, hc, isJSONChar, quoteScan_eq (show tb json i' < i' by omega), h1])
    (by
      rintro j s' hj hc ht h0 rfl
      refine ⟨_, ?_, rfl⟩
      rw [← hj]
      simp [pcBody, hc, isJSONChar, quoteScan_eq (show tb json j < j by omega), h0, hq])
    hseg hok hp rfl
  exact hr

/-- What passing over a value does to the state. -/
structure Built (label : Bytes) (v : Json) (s s' : PcSt) : Prop where
  quote : s'.inQuote = false
  ups : s'.ups = s.ups
  braces : s'.braces = s.braces
  idxs : s'.idxs = s.idxs
  scalar : v.isContainer = false → s'.cur = s.cur ∧ s'.key = s.key ∧ s'.valStart = s.valStart ∧ s'.last = s.last
  container : v.isContainer = true → s'.cur = s.cur.addChild (nodeOf label [] [] v) ∧ (s'.last = 93 ∨ s'.last = 125)

/-- The label of the value about to be read. -/
def PcSt.label (s : PcSt) (n : Nat) : Bytes := if s.last == 58 then s.key else itoa n

/-- The state after the closing bracket of a container. -/
structure Closed (s s' : PcSt) (T : Bytes) (ds : List Node) (up : Node) (us : List Node) (bs ns : List Nat) : Prop where
  cur : s'.cur = up.addChild (.mk s.cur.label T (s.cur.down ++ ds))
  quote : s'.inQuote = false
  ups : s'.ups = us
  braces : s'.braces = bs
  idxs : s'.idxs = ns
  last : s'.last = 93 ∨ s'.last = 125

theorem pc_open {s : PcSt} {i n : Nat} {ns : List Nat} {c : UInt8} (hc : json[i]? = some c) (hb : c = 91 ∨ c = 123)
    (hq : s.inQuote = false) (hi : s.idxs = n :: ns) :
    pcBody json i s = .next { s with
      cur := .mk (s.label n) [] [], ups := s.cur :: s.ups, idxs := 0 :: s.idxs, braces := i :: s.braces
      valStart := i + 1, last := c } := by
  rcases hb with rfl | rfl <;> simp [pcBody, hc, isJSONChar, hq, hi, PcSt.label]

/-- Closing when no child is pending. -/
theorem pc_close_none {s : PcSt} {i b n : Nat} {ns bs : List Nat} {up : Node} {us : List Node} {c : UInt8} {T : Bytes}
    (hc : json[i]? = some c) (hb : c = 93 ∨ c = 125) (hq : s.inQuote = false) (hi : s.idxs = n :: ns)
    (h58 : s.last ≠ 58) (h44 : s.last ≠ 44) (hbr : s.braces = b :: bs) (hu : s.ups = up :: us)
    (hT : slice json b ((i + 1 : Nat) : Int) = .ok T) :
    ∃ s', pcBody json i s = .next s' ∧ Closed s s' T [] up us bs ns := by
  obtain ⟨⟨lb, vl, dn⟩, ups, br, ix, q, st, sp, ky, vs, la⟩ := s
  simp only at hq hi h58 h44 hbr hu
  subst hq hi hbr hu
  have hT : slice json (b : Int) ((i : Int) + 1) = .ok T := by exact_mod_cast hT
  rcases hb with rfl | rfl <;>
    exact ⟨_, by simp [pcBody, hc, isJSONChar, h58, h44, hT, Node.setValue, Node.addChild]; rfl,
      ⟨by simp [Node.label, Node.down, Node.addChild], rfl, rfl, rfl, rfl, by simp⟩⟩

/-- Closing after a scalar. -/
theorem pc_close_some {s : PcSt} {i b n : Nat} {ns bs : List Nat} {up : Node} {us : List Node} {c : UInt8} {T V : Bytes}
    (hc : json[i]? = some c) (hb : c = 93 ∨ c = 125) (hq : s.inQuote = false) (hi : s.idxs = n :: ns)
    (hl : s.last = 58 ∨ s.last = 44) (hbr : s.braces = b :: bs) (hu : s.ups = up :: us)
    (hT : slice json b ((i + 1 : Nat) : Int) = .ok T) (hV : slice json s.valStart i = .ok V) :
    ∃ s', pcBody json i s = .next s' ∧ Closed s s' T [.mk (s.label n) V []] up us bs ns := by
  obtain ⟨⟨lb, vl, dn⟩, ups, br, ix, q, st, sp, ky, vs, la⟩ := s
  simp only at hq hi hl hbr hu hV
  subst hq hi hbr hu
  have hT : slice json (b : Int) ((i : Int) + 1) = .ok T := by exact_mod_cast hT
  rcases hb with rfl | rfl <;> rcases hl with rfl | rfl <;>
    exact ⟨_, by simp [pcBody, hc, isJSONChar, hT, hV, Node.setValue, Node.addChild, Node.setDown, Node.down]; rfl,
      ⟨by simp [Node.label, Node.down, Node.addChild, PcSt.label, Node.setDown], rfl, rfl, rfl, rfl, by simp⟩⟩

theorem pc_comma {s : PcSt} {i n : Nat} {ns : List Nat} {V : Bytes} (hc : json[i]? = some 44)
    (hq : s.inQuote = false) (hi : s.idxs = n :: ns) (hV : slice json s.valStart i = .ok V) :
    pcBody json i s = .next { s with
      cur := if s.last = 58 ∨ s.last = 44 ∨ s.last = 91 then s.cur.addChild (.mk (s.label n) V []) else s.cur
      idxs := (n + 1) :: ns, valStart := i + 1, last := 44 } := by
  obtain ⟨cur, ups, br, ix, q, st, sp, ky, vs, la⟩ := s
  simp only at hq hi hV
  subst hq hi
  by_cases h1 : la = 58
  · subst h1; simp [pcBody, hc, isJSONChar, hV, PcSt.label]
  · by_cases h2 : la = 44
    · subst h2; simp [pcBody, hc, isJSONChar, hV, PcSt.label]
    · by_cases h3 : la = 91
      · subst h3; simp [pcBody, hc, isJSONChar, hV, PcSt.label]
      · simp [pcBody, hc, isJSONChar, h1, h2, h3]

theorem pc_comma_none {s : PcSt} {i n : Nat} {ns : List Nat} (hc : json[i]? = some 44)
    (hq : s.inQuote = false) (hi : s.idxs = n :: ns) (hl : s.last = 93 ∨ s.last = 125) :
    pcBody json i s = .next { s with idxs := (n + 1) :: ns, valStart := i + 1, last := 44 } := by
  obtain ⟨cur, ups, br, ix, q, st, sp, ky, vs, la⟩ := s
  simp only at hq hi hl
  subst hq hi
  rcases hl with rfl | rfl <;> simp [pcBody, hc, isJSONChar]

theorem pc_colon {s : PcSt} {i : Nat} {k : Bytes} (hc : json[i]? = some 58) (hq : s.inQuote = false)
    (hk : slice json s.start s.stop = .ok k) :
    pcBody json i s = .next { s with key := k, valStart := i + 1, last := 58 } := by
  simp [pcBody, hc, isJSONChar, hq, hk]

/-- The text of an element list, cut where the loop acts. -/
theorem renderElems_cut (e : Elem Json) (es : List (Elem Json)) :
    renderElems (e :: es) ++ [93] = (e.l ++ (e.v.render ++ e.r)) ++
      (if es.isEmpty then [93] else 44 :: (renderElems es ++ [93])) := by
  rw [renderElems_cons]
  by_cases he : es.isEmpty <;> simp [he]

mutual
theorem pc_value : ∀ (v : Json) {i n : Nat} {ns : List Nat} {s : PcSt}, v.wf → Seg json i v.render →
    (v.isContainer = false → PrevOk json i) → s.inQuote = false → s.idxs = n :: ns →
    ∃ s', Run json (pcBody json) i s (i + v.render.length) s' ∧ Built (s.label n) v s s'
  | .lit t, i, n, ns, s, hw, hseg, _, hq, hi => by
    rw [render_lit] at hseg ⊢
    simp only [Json.wf, Bool.and_eq_true, List.all_eq_true] at hw
    exact ⟨s, pc_toks (fun c hc => .inl (hw.2 c hc)) hseg, hq, rfl, rfl, rfl, fun _ => ⟨rfl, rfl, rfl, rfl⟩,
      fun h => by simp [Json.isContainer] at h⟩
  | .str t, i, n, ns, s, hw, hseg, hp, hq, hi => by
    rw [render_str] at hseg ⊢
    have := pc_str hq hseg (by simpa [Json.wf] using hw) (hp rfl)
    exact ⟨_, this.to (by simp), hq, rfl, rfl, rfl, fun _ => ⟨rfl, rfl, rfl, rfl⟩,
      fun h => by simp [Json.isContainer] at h⟩
  | .arr g es, i, n, ns, s, hw, hseg, hp, hq, hi => by
    have hall := hseg
    have hle := hseg.len (render_ne_nil hw)
    rw [wf_arr] at hw
    rw [render_arr, seg_cons] at hseg
    have b1 := pc_open hseg.1 (.inl rfl) hq hi
    have r1 := Run.next hseg.1 b1
    generalize hs1 : ({ s with cur := .mk (s.label n) [] [], ups := s.cur :: s.ups, idxs := 0 :: s.idxs
                               braces := i :: s.braces, valStart := i + 1, last := 91 } : PcSt) = s1 at *
    have hT : slice json i ((i + (Json.arr g es).render.length : Nat) : Int) = .ok (Json.arr g es).render :=
      slice_seg hall rfl hle
    by_cases he : es = []
    · subst he
      simp only [List.isEmpty_nil, if_true] at hseg
      rw [seg_append, seg_cons] at hseg
      have r2 : Run json (pcBody json) (i + 1) s1 _ s1 := pc_ws hseg.2.1 hw.1
      obtain ⟨s3, b3, h3⟩ := pc_close_none (s := s1) (b := i) (n := 0) (T := (Json.arr g []).render) hseg.2.2.1 (.inl rfl)
        (by rw [← hs1]; exact hq) (by rw [← hs1]) (by rw [← hs1]; show (91 : UInt8) ≠ 58; decide) (by rw [← hs1]; show (91 : UInt8) ≠ 44; decide) (by rw [← hs1])
        (by rw [← hs1]) (by rw [← hT]; congr 2; simp [render_arr]; omega)
      refine ⟨s3, ((r1.trans r2).trans (Run.next hseg.2.2.1 b3)).to (by simp [render_arr]; omega), h3.quote, h3.ups, h3.braces, h3.idxs,
        fun h => by simp [Json.isContainer] at h, fun _ => ⟨?_, h3.last⟩⟩
      rw [h3.cur, ← hs1]
      simp [nodeOf, Node.label, Node.down, lone, nodesE]
    · have hb : es.isEmpty = false := by simpa using he
      simp only [hb, Bool.false_eq_true, if_false] at hseg
      obtain ⟨s3, r3, h3⟩ := pc_elems es (k := 0) (s := s1) (T := (Json.arr g es).render) (b := i) he hw.2 hseg.2
        (prevOk_succ hseg.1 (by decide)) (by rw [← hs1]; exact hq) (by rw [← hs1])
        (by rw [← hs1]) (by rw [← hs1]; rfl) (by rw [← hs1])
        (by rw [← hs1]) (by rw [← hT]; congr 2; simp [render_arr, hb]; omega)
      refine ⟨s3, (r1.trans r3).to (by simp [render_arr, hb]; omega), h3.quote, h3.ups, h3.braces, h3.idxs,
        fun h => by simp [Json.isContainer] at h, fun _ => ⟨?_, h3.last⟩⟩
      rw [h3.cur, ← hs1]
      simp [nodeOf, Node.label, Node.down]
  | .obj g ms, i, n, ns, s, hw, hseg, hp, hq, hi => by
    have hall := hseg
    have hle := hseg.len (render_ne_nil hw)
    rw [wf_obj] at hw
    rw [render_obj, seg_cons] at hseg
    have b1 := pc_open hseg.1 (.inr rfl) hq hi
    have r1 := Run.next hseg.1 b1
    generalize hs1 : ({ s with cur := .mk (s.label n) [] [], ups := s.cur :: s.ups, idxs := 0 :: s.idxs
                               braces := i :: s.braces, valStart := i + 1, last := 123 } : PcSt) = s1 at *
    have hT : slice json i ((i + (Json.obj g ms).render.length : Nat) : Int) = .ok (Json.obj g ms).render :=
      slice_seg hall rfl hle
    by_cases he : ms = []
    · subst he
      simp only [List.isEmpty_nil, if_true] at hseg
      rw [seg_append, seg_cons] at hseg
      have r2 : Run json (pcBody json) (i + 1) s1 _ s1 := pc_ws hseg.2.1 hw.1
      obtain ⟨s3, b3, h3⟩ := pc_close_none (s := s1) (b := i) (n := 0) (T := (Json.obj g []).render) hseg.2.2.1 (.inr rfl)
        (by rw [← hs1]; exact hq) (by rw [← hs1]) (by rw [← hs1]; show (123 : UInt8) ≠ 58; decide) (by rw [← hs1]; show (123 : UInt8) ≠ 44; decide) (by rw [← hs1])
        (by rw [← hs1]) (by rw [← hT]; congr 2; simp [render_obj]; omega)
      refine ⟨s3, ((r1.trans r2).trans (Run.next hseg.2.2.1 b3)).to (by simp [render_obj]; omega), h3.quote, h3.ups, h3.braces, h3.idxs,
        fun h => by simp [Json.isContainer] at h, fun _ => ⟨?_, h3.last⟩⟩
      rw [h3.cur, ← hs1]
      simp [nodeOf, Node.label, Node.down, nodesM]
    · have hb : ms.isEmpty = false := by simpa using he
      simp only [hb, Bool.false_eq_true, if_false] at hseg
      obtain ⟨s3, r3, h3⟩ := pc_members ms (k := 0) (s := s1) (T := (Json.obj g ms).render) (b := i) he hw.2 hseg.2
        (prevOk_succ hseg.1 (by decide)) (by rw [← hs1]; exact hq) (by rw [← hs1])
        (by rw [← hs1])
        (by rw [← hs1]) (by rw [← hT]; congr 2; simp [render_obj, hb]; omega)
      refine ⟨s3, (r1.trans r3).to (by simp [render_obj, hb]; omega), h3.quote, h3.ups, h3.braces, h3.idxs,
        fun h => by simp [Json.isContainer] at h, fun _ => ⟨?_, h3.last⟩⟩
      rw [h3.cur, ← hs1]
      simp [nodeOf, Node.label, Node.down]

theorem pc_elems : ∀ (es : List (Elem Json)) {i b k : Nat} {ns bs : List Nat} {s : PcSt} {up : Node} {us : List Node} {T : Bytes},
    es ≠ [] → wfElems es → Seg json i (renderElems es ++ [93]) → PrevOk json i → s.inQuote = false → s.idxs = k :: ns →
    s.valStart = i → s.last = (if k = 0 then 91 else 44) → s.braces = b :: bs → s.ups = up :: us →
    slice json b ((i + ((renderElems es).length + 1) : Nat) : Int) = .ok T →
    ∃ s', Run json (pcBody json) i s (i + ((renderElems es).length + 1)) s' ∧
      Closed s s' T (if k = 0 ∧ lone es then [] else nodesE k es) up us bs ns
  | [], _, _, _, _, _, _, _, _, _, h, _, _, _, _, _, _, _, _, _, _ => absurd rfl h
  | e :: es, i, b, k, ns, bs, s, up, us, T, _, hw, hseg, hp, hq, hi, hvs, hl, hbr, hu, hT => by
    rw [wfElems_cons] at hw
    obtain ⟨w1, w2, w3, w4⟩ := hw
    have hlen : (renderElems (e :: es)).length + 1 = (renderElems (e :: es) ++ [93]).length := by simp
    rw [renderElems_cut] at hlen
    rw [renderElems_cut, seg_append] at hseg
    rw [hlen] at hT ⊢
    obtain ⟨h1, h2⟩ := hseg
    have hx := h1
    rw [seg_append, seg_append] at h1
    obtain ⟨g1, g2, g3⟩ := h1
    have r1 : Run json (pcBody json) i s _ s := pc_ws g1 w1
    obtain ⟨s1, r2, h4⟩ := pc_value e.v (s := s) w2 g2 (fun _ => prevOk_ws g1 w1 hp) hq hi
    have r3 : Run json (pcBody json) _ s1 _ s1 := pc_ws g3 w3
    have base := ((r1.trans r2).trans r3).to (j' := i + (e.l ++ (e.v.render ++ e.r)).length) (by simp; omega)
    clear r1 r2 r3 g1 g2 g3
    generalize hxx : e.l ++ (e.v.render ++ e.r) = x at *
    have hlab : s.label k = itoa k := by simp only [PcSt.label, hl]; split <;> rfl
    rw [hlab] at h4
    by_cases he : es = []
    · subst he
      simp only [List.isEmpty_nil, if_true] at h2 hT ⊢
      rw [seg_cons] at h2
      have hT' : slice json b ((i + x.length + 1 : Nat) : Int) = .ok T := by
        rw [← hT]; congr 2; simp; omega
      cases hc : e.v.isContainer with
      | true =>
        obtain ⟨hcur, hlast⟩ := h4.container hc
        obtain ⟨s2, b2, h5⟩ := pc_close_none (s := s1) h2.1 (.inl rfl) h4.quote (h4.idxs.trans hi)
          (by rcases hlast with h | h <;> rw [h] <;> decide) (by rcases hlast with h | h <;> rw [h] <;> decide)
          (h4.braces.trans hbr) (h4.ups.trans hu) hT'
        refine ⟨s2, (base.trans (Run.next h2.1 b2)).to (by simp; omega), ⟨?_, h5.quote, h5.ups, h5.braces, h5.idxs, h5.last⟩⟩
        rw [h5.cur, hcur]
        have : lone [e] = false := by simp [lone, hc]
        rw [nodeOf_container hc e.l e.r]
        simp [this, nodesE, Node.addChild, Node.setDown]
        cases hcc : s.cur; rfl
      | false =>
        obtain ⟨c1, c2, c3, c4⟩ := h4.scalar hc
        by_cases hk : k = 0
        · simp only [hk, if_true] at hl
          obtain ⟨s2, b2, h5⟩ := pc_close_none (s := s1) h2.1 (.inl rfl) h4.quote (h4.idxs.trans hi)
            (by rw [c4, hl]; decide) (by rw [c4, hl]; decide)
            (h4.braces.trans hbr) (h4.ups.trans hu) hT'
          refine ⟨s2, (base.trans (Run.next h2.1 b2)).to (by simp; omega), ⟨?_, h5.quote, h5.ups, h5.braces, h5.idxs, h5.last⟩⟩
          rw [h5.cur, c1]
          simp [hk, lone, hc]
        · simp only [hk, if_false] at hl
          have hV : slice json s1.valStart ((i + x.length : Nat) : Int) = .ok x := by
            rw [c3, hvs]; exact slice_seg_len hx h2.1
          obtain ⟨s2, b2, h5⟩ := pc_close_some (s := s1) h2.1 (.inl rfl) h4.quote (h4.idxs.trans hi)
            (.inr (by rw [c4, hl]))
            (h4.braces.trans hbr) (h4.ups.trans hu) hT' hV
          refine ⟨s2, (base.trans (Run.next h2.1 b2)).to (by simp; omega), ⟨?_, h5.quote, h5.ups, h5.braces, h5.idxs, h5.last⟩⟩
          have hl1 : s1.label k = itoa k := by simp [PcSt.label, c4, hl]
          rw [h5.cur, c1, hl1]
          simp [hk, nodesE, nodeOf_scalar hc, hxx]
    · have hb : es.isEmpty = false := by simpa using he
      simp only [hb, Bool.false_eq_true, if_false] at h2 hT ⊢
      rw [seg_cons] at h2
      have hne : lone (e :: es) = false := by
        cases es with
        | nil => exact absurd rfl he
        | cons a b => rfl
      have step : ∃ s2, pcBody json (i + x.length) s1 = .next s2 ∧ s2.cur = s.cur.addChild (nodeOf (itoa k) e.l e.r e.v) ∧
          s2.inQuote = false ∧ s2.ups = s.ups ∧ s2.braces = s.braces ∧ s2.idxs = (k + 1) :: ns ∧
          s2.valStart = i + x.length + 1 ∧ s2.last = 44 := by
        cases hc : e.v.isContainer with
        | true =>
          obtain ⟨hcur, hlast⟩ := h4.container hc
          have := pc_comma_none (s := s1) h2.1 h4.quote (h4.idxs.trans hi) hlast
          exact ⟨_, this, by rw [hcur, nodeOf_container hc e.l e.r], h4.quote, h4.ups, h4.braces, rfl, rfl, rfl⟩
        | false =>
          obtain ⟨c1, c2, c3, c4⟩ := h4.scalar hc
          have hV : slice json s1.valStart ((i + x.length : Nat) : Int) = .ok x := by
            rw [c3, hvs]; exact slice_seg_len hx h2.1
          have := pc_comma (s := s1) h2.1 h4.quote (h4.idxs.trans hi) hV
          have hl1 : s1.label k = itoa k := by simp only [PcSt.label, c4, hl]; split <;> rfl
          rw [if_pos (by rw [c4, hl]; split <;> simp)] at this
          exact ⟨_, this, by rw [c1, hl1, nodeOf_scalar hc, hxx], h4.quote, h4.ups, h4.braces, rfl, rfl, rfl⟩
      obtain ⟨s2, b2, k1, k2, k3, k4, k5, k6, k7⟩ := step
      obtain ⟨s3, r3, h5⟩ := pc_elems es (k := k + 1) (s := s2) (T := T) he w4 h2.2 (prevOk_succ h2.1 (by decide)) k2 k5 k6
        (by simpa using k7) (k4.trans hbr) (k3.trans hu) (by rw [← hT]; congr 2; simp; omega)
      refine ⟨s3, ((base.trans (Run.next h2.1 b2)).trans r3).to (by simp; omega), ⟨?_, h5.quote, h5.ups, h5.braces, h5.idxs, h5.last⟩⟩
      rw [h5.cur, k1]
      simp [hne, nodesE_cons, Node.addChild, Node.setDown]
      cases s.cur; simp [Node.label, Node.down]

theorem pc_members : ∀ (ms : List (Member Json)) {i b k : Nat} {ns bs : List Nat} {s : PcSt} {up : Node} {us : List Node} {T : Bytes},
    ms ≠ [] → wfMembers ms → Seg json i (renderMembers ms ++ [125]) → PrevOk json i → s.inQuote = false → s.idxs = k :: ns →
    s.braces = b :: bs → s.ups = up :: us →
    slice json b ((i + ((renderMembers ms).length + 1) : Nat) : Int) = .ok T →
    ∃ s', Run json (pcBody json) i s (i + ((renderMembers ms).length + 1)) s' ∧ Closed s s' T (nodesM ms) up us bs ns
  | [], _, _, _, _, _, _, _, _, _, h, _, _, _, _, _, _, _, _ => absurd rfl h
  | m :: ms, i, b, k, ns, bs, s, up, us, T, _, hw, hseg, hp, hq, hi, hbr, hu, hT => by
    rw [wfMembers_cons] at hw
    obtain ⟨w1, w2, w3, w4, w5, w6, w7⟩ := hw
    have hlen : (renderMembers (m :: ms)).length + 1 = (renderMembers (m :: ms) ++ [125]).length := by simp
    rw [renderMembers_cut] at hlen
    rw [renderMembers_cut, seg_append, seg_append] at hseg
    rw [hlen] at hT ⊢
    obtain ⟨g1, g2, hseg⟩ := hseg
    rw [seg_append, seg_cons, seg_append] at hseg
    obtain ⟨g3, g4, g5, h2⟩ := hseg
    have hk : (34 :: (m.key ++ [34])).length = m.key.length + 2 := by simp
    have r1 : Run json (pcBody json) i s _ s := pc_ws g1 w1
    have r2 := pc_str (s := s) hq g2 w2 (prevOk_ws g1 w1 hp)
    rw [hk] at g3 g4 g5 h2
    generalize hs0 : ({ s with start := i + m.l.length + 1, stop := i + m.l.length + (m.key.length + 1) } : PcSt) = s0 at *
    have r3 : Run json (pcBody json) _ s0 _ s0 := pc_ws g3 w3
    have hkey := slice_key g2
    have b4 := pc_colon (s := s0) (k := m.key) g4 (by rw [← hs0]; exact hq) (by rw [← hs0]; exact_mod_cast hkey)
    have r4 := Run.next g4 b4
    generalize hB : i + m.l.length + (m.key.length + 2) + m.m.length = B at *
    generalize hsa : ({ s0 with key := m.key, valStart := B + 1, last := 58 } : PcSt) = sa at *
    have qa : sa.inQuote = false := by rw [← hsa, ← hs0]; exact hq
    have ia : sa.idxs = k :: ns := by rw [← hsa, ← hs0]; exact hi
    have ba : sa.braces = b :: bs := by rw [← hsa, ← hs0]; exact hbr
    have ua : sa.ups = up :: us := by rw [← hsa, ← hs0]; exact hu
    have va : sa.valStart = B + 1 := by rw [← hsa]
    have la : sa.last = 58 := by rw [← hsa]
    have ka : sa.key = m.key := by rw [← hsa]
    have ca : sa.cur = s.cur := by rw [← hsa, ← hs0]
    have hx := g5
    rw [seg_append, seg_append] at g5
    obtain ⟨f1, f2, f3⟩ := g5
    have r5 : Run json (pcBody json) _ sa _ sa := pc_ws f1 w4
    obtain ⟨s1, r6, h4⟩ := pc_value m.v (s := sa) w5 f2 (fun _ => prevOk_ws f1 w4 (prevOk_succ g4 (by decide))) qa ia
    have r7 : Run json (pcBody json) _ s1 _ s1 := pc_ws f3 w6
    have base := ((((r1.trans r2).trans r3).trans r4).trans ((r5.trans r6).trans r7)).to
      (j' := B + 1 + (m.l2 ++ (m.v.render ++ m.r)).length) (by simp; omega)
    clear r1 r2 r3 r4 r5 r6 r7 f1 f2 f3 b4
    generalize hxx : m.l2 ++ (m.v.render ++ m.r) = x at *
    have hlab : sa.label k = m.key := by simp [PcSt.label, la, ka]
    rw [hlab] at h4
    by_cases he : ms = []
    · subst he
      simp only [List.isEmpty_nil, if_true] at h2 hT ⊢
      rw [seg_cons] at h2
      have hT' : slice json b ((B + 1 + x.length + 1 : Nat) : Int) = .ok T := by
        rw [← hT]; congr 2; simp; omega
      cases hc : m.v.isContainer with
      | true =>
        obtain ⟨hcur, hlast⟩ := h4.container hc
        obtain ⟨s2, b2, h5⟩ := pc_close_none (s := s1) h2.1 (.inr rfl) h4.quote (h4.idxs.trans ia)
          (by rcases hlast with h | h <;> rw [h] <;> decide) (by rcases hlast with h | h <;> rw [h] <;> decide)
          (h4.braces.trans ba) (h4.ups.trans ua) hT'
        refine ⟨s2, (base.trans (Run.next h2.1 b2)).to (by simp; omega), ⟨?_, h5.quote, h5.ups, h5.braces, h5.idxs, h5.last⟩⟩
        rw [h5.cur, hcur, ca, nodeOf_container hc m.l2 m.r]
        simp [nodesM, Node.addChild, Node.setDown]
        cases hcc : s.cur; rfl
      | false =>
        obtain ⟨c1, c2, c3, c4⟩ := h4.scalar hc
        have hV : slice json s1.valStart ((B + 1 + x.length : Nat) : Int) = .ok x := by
          rw [c3, va]; exact slice_seg_len hx h2.1
        obtain ⟨s2, b2, h5⟩ := pc_close_some (s := s1) h2.1 (.inr rfl) h4.quote (h4.idxs.trans ia)
          (.inl (by rw [c4, la])) (h4.braces.trans ba) (h4.ups.trans ua) hT' hV
        refine ⟨s2, (base.trans (Run.next h2.1 b2)).to (by simp; omega), ⟨?_, h5.quote, h5.ups, h5.braces, h5.idxs, h5.last⟩⟩
        have hl1 : s1.label k = m.key := by simp [PcSt.label, c4, la, c2, ka]
        rw [h5.cur, c1, hl1, ca]
        simp [nodesM, nodeOf_scalar hc, hxx]
    · have hb : ms.isEmpty = false := by simpa using he
      simp only [hb, Bool.false_eq_true, if_false] at h2 hT ⊢
      rw [seg_cons] at h2
      have step : ∃ s2, pcBody json (B + 1 + x.length) s1 = .next s2 ∧ s2.cur = s.cur.addChild (nodeOf m.key m.l2 m.r m.v) ∧
          s2.inQuote = false ∧ s2.ups = sa.ups ∧ s2.braces = sa.braces ∧ s2.idxs = (k + 1) :: ns := by
        cases hc : m.v.isContainer with
        | true =>
          obtain ⟨hcur, hlast⟩ := h4.container hc
          have := pc_comma_none (s := s1) h2.1 h4.quote (h4.idxs.trans ia) hlast
          exact ⟨_, this, by rw [hcur, ca, nodeOf_container hc m.l2 m.r], h4.quote, h4.ups, h4.braces, rfl⟩
        | false =>
          obtain ⟨c1, c2, c3, c4⟩ := h4.scalar hc
          have hV : slice json s1.valStart ((B + 1 + x.length : Nat) : Int) = .ok x := by
            rw [c3, va]; exact slice_seg_len hx h2.1
          have := pc_comma (s := s1) h2.1 h4.quote (h4.idxs.trans ia) hV
          have hl1 : s1.label k = m.key := by simp [PcSt.label, c4, la, c2, ka]
          rw [if_pos (by rw [c4, la]; simp)] at this
          exact ⟨_, this, by rw [c1, hl1, ca, nodeOf_scalar hc, hxx], h4.quote, h4.ups, h4.braces, rfl⟩
      obtain ⟨s2, b2, k1, k2, k3, k4, k5⟩ := step
      obtain ⟨s3, r3, h5⟩ := pc_members ms (k := k + 1) (s := s2) (T := T) he w7 h2.2 (prevOk_succ h2.1 (by decide)) k2 k5
        (k4.trans ba) (k3.trans ua) (by rw [← hT]; congr 2; simp; omega)
      refine ⟨s3, ((base.trans (Run.next h2.1 b2)).trans r3).to (by simp; omega), ⟨?_, h5.quote, h5.ups, h5.braces, h5.idxs, h5.last⟩⟩
      rw [h5.cur, k1]
      simp [nodesM_cons, Node.addChild, Node.setDown]
      cases s.cur; simp [Node.label, Node.down]
end

end

/-! ### Parse -/

/-- The node the parser holds for a document. -/
def rootNode (j : Json) : Node := nodeOf (itoa 0) [] [] j

theorem container_len {v : Json} (h : v.isContainer) : 2 ≤ v.render.length := by
  cases v with
  | lit _ => simp [Json.isContainer] at h
  | str _ => simp [Json.isContainer] at h
  | arr g es => rw [render_arr]; simp
  | obj g es => rw [render_obj]; simp

theorem pCore_ok {d : Doc} (hd : d.wf) (hc : d.root.isContainer) (n : Node) :
    pCore d.render n = .ok (n.addChild (rootNode d.root)) := by
  have hw := doc_wf.1 hd
  have h0 := seg_self d.render
  conv at h0 => arg 3; rw [Doc.render]
  rw [seg_append, seg_append, Nat.zero_add] at h0
  obtain ⟨h1, h2, h3⟩ := h0
  have hlen : d.render.length = d.lead.length + d.root.render.length + d.trail.length := by
    simp [Doc.render]; omega
  have := container_len hc
  have hsk := skipSpaces_value (i := 0) h1 hw.1 hw.2.1 (by simpa using h2)
  rw [Nat.zero_add] at hsk
  unfold pCore
  rw [if_neg (by omega)]
  simp only [hsk]
  obtain ⟨s', r, hb⟩ := pc_value d.root (i := d.lead.length) (n := 0) (ns := [])
    (s := ⟨n, [], [], [0], false, d.lead.length, 0, [], 0, 0⟩) hw.2.1 h2 (fun h => by rw [hc] at h; cases h) rfl rfl
  have r2 : Run d.render (pcBody d.render) _ s' _ s' := pc_ws h3 hw.2.2
  have r3 := r.trans r2
  rw [show forUp d.render.length (pcBody d.render) d.lead.length ⟨n, [], [], [0], false, d.lead.length, 0, [], 0, 0⟩ = _ from r3,
    forUp_end (by omega)]
  simp only [hb.ups, foldUps, (hb.container hc).1]
  rfl

theorem Parse_ok {d : Doc} (hd : d.wf) (hc : d.root.isContainer) :
    Parse d.render = .ok ⟨rootNode d.root, d.render⟩ := by
  unfold Parse
  rw [pCore_ok hd hc]
  rfl

end Jin
