import Verif.Proof.Loop
import Verif.Spec.Edit
/-!
# Proof.Skip — every scanning loop passes over a complete JSON value

The loops of the package all scan bytes, flipping an "in quotes" flag at
unescaped quotes and counting brackets.  `skip_value` shows once, for any loop
body with that behaviour, that a well-formed value is passed over and leaves
the nesting level unchanged.
-/

namespace Jin
open Spec

theorem space_eq (c : UInt8) : space c = isWs c := rfl

/-! ### Small facts about the syntax -/

theorem isWs_ne {c : UInt8} (h : isWs c = true) :
    c ≠ 34 ∧ c ≠ 92 ∧ c ≠ 44 ∧ c ≠ 58 ∧ c ≠ 91 ∧ c ≠ 93 ∧ c ≠ 123 ∧ c ≠ 125 := by
  refine ⟨?_, ?_, ?_, ?_, ?_, ?_, ?_, ?_⟩ <;> (rintro rfl; exact absurd h (by decide))

theorem tokByte_ne {c : UInt8} (h : tokByte c = true) :
    isWs c = false ∧ c ≠ 34 ∧ c ≠ 92 ∧ c ≠ 44 ∧ c ≠ 58 ∧ c ≠ 91 ∧ c ≠ 93 ∧ c ≠ 123 ∧ c ≠ 125 := by
  simp only [tokByte, Bool.not_eq_true', Bool.or_eq_false_iff, beq_eq_false_iff_ne, ne_eq] at h
  obtain ⟨⟨⟨⟨⟨⟨⟨⟨h1, h2⟩, h3⟩, h4⟩, h5⟩, h6⟩, h7⟩, h8⟩, h9⟩ := h
  exact ⟨h1, h2, h3, h4, h5, h6, h7, h8, h9⟩

@[simp] theorem render_lit (t : Text) : (Json.lit t).render = t := by simp [Json.render]
@[simp] theorem render_str (t : Text) : (Json.str t).render = 34 :: (t ++ [34]) := by simp [Json.render]
theorem render_arr (g : Text) (es : List (Elem Json)) :
    (Json.arr g es).render = 91 :: ((if es.isEmpty then g else renderElems es) ++ [93]) := by
  simp [Json.render]
theorem render_obj (g : Text) (ms : List (Member Json)) :
    (Json.obj g ms).render = 123 :: ((if ms.isEmpty then g else renderMembers ms) ++ [125]) := by
  simp [Json.render]

theorem strOk_cons {c : UInt8} {r : Text} (hc : c ≠ 92) :
    strOk (c :: r) = (c != 34 && strOk r) := by
  rw [strOk.eq_def]
  split
  · rename_i h; cases h
  · rename_i h; simp only [List.cons.injEq] at h; exact absurd h.1 hc
  · rename_i h; simp only [List.cons.injEq] at h; rw [← h.1, ← h.2, bne_iff_ne.2 hc, Bool.and_true]

theorem strOk_esc (b : UInt8) (r : Text) : strOk (92 :: b :: r) = strOk r := by rw [strOk]

theorem strOk_bs : strOk [92] = false := by decide

/-- Induction along the content of a string. -/
theorem strOk_ind {P : Text → Prop} (h0 : P [])
    (hesc : ∀ b r, strOk r → P r → P (92 :: b :: r))
    (hch : ∀ c r, c ≠ 92 → c ≠ 34 → strOk r → P r → P (c :: r)) :
    ∀ raw, strOk raw → P raw := by
  intro raw
  induction hn : raw.length using Nat.strongRecOn generalizing raw with
  | _ n ih =>
    intro h
    match raw, hn, h with
    | [], _, _ => exact h0
    | c :: r, hn, h =>
      by_cases hc : c = 92
      · subst hc
        match r, hn, h with
        | [], _, h => exact absurd h (by decide)
        | b :: r, hn, h =>
          rw [strOk_esc] at h
          exact hesc b r h (ih r.length (by simp at hn; omega) r rfl h)
      · rw [strOk_cons hc] at h
        simp only [Bool.and_eq_true, bne_iff_ne, ne_eq] at h
        exact hch c r hc h.1 h.2 (ih r.length (by simp at hn; omega) r rfl h.2)

theorem ws_cons {c : UInt8} {w : Text} : Ws (c :: w) = (isWs c && Ws w) := by simp [Ws]

theorem prevOk_ws {json w : Bytes} {i : Nat} (h : Seg json i w) (hw : Ws w)
    (hp : PrevOk json i) : PrevOk json (i + w.length) := by
  cases w with
  | nil => simpa using hp
  | cons c w =>
    apply prevOk_seg h (by simp)
    intro hl
    have := List.mem_of_getLast? hl
    simp only [Ws, List.all_eq_true] at hw
    exact (isWs_ne (hw _ this)).2.1 rfl

theorem render_ne_nil {v : Json} (h : v.wf) : v.render ≠ [] := by
  cases v <;> simp_all [Json.render, Json.wf]

theorem render_last {v : Json} (h : v.wf) : v.render.getLast? ≠ some 92 := by
  cases v with
  | lit t =>
    simp only [Json.wf, Bool.and_eq_true, List.all_eq_true] at h
    intro hl
    simp only [render_lit] at hl
    exact (tokByte_ne (h.2 _ (List.mem_of_getLast? hl))).2.2.1 rfl
  | str t => rw [render_str, ← List.cons_append, List.getLast?_concat]; decide
  | arr g es => rw [render_arr, ← List.cons_append, List.getLast?_concat]; decide
  | obj g es => rw [render_obj, ← List.cons_append, List.getLast?_concat]; decide

theorem prevOk_value {json : Bytes} {i : Nat} {v : Json} (hv : v.wf) (h : Seg json i v.render) :
    PrevOk json (i + v.render.length) := prevOk_seg h (render_ne_nil hv) (render_last hv)

/-! ### Passing over values -/

section
variable {σ ρ : Type}

/-- From index `i` in state `s` the loop gets to index `j` in state `s'`. -/
def Run (json : Bytes) (body : Nat → σ → Ctl σ ρ) (i : Nat) (s : σ) (j : Nat) (s' : σ) : Prop :=
  forUp json.length body i s = forUp json.length body j s'

theorem Run.refl {json : Bytes} {body : Nat → σ → Ctl σ ρ} {i : Nat} {s : σ} :
    Run json body i s i s := rfl
theorem Run.trans {json : Bytes} {body : Nat → σ → Ctl σ ρ} {i j k : Nat} {s s' s'' : σ}
    (h : Run json body i s j s') (h' : Run json body j s' k s'') : Run json body i s k s'' :=
  Eq.trans h h'
theorem Run.to {json : Bytes} {body : Nat → σ → Ctl σ ρ} {i j j' : Nat} {s s' : σ}
    (h : Run json body i s j s') (e : j = j') : Run json body i s j' s' := e ▸ h
theorem Run.next {json : Bytes} {body : Nat → σ → Ctl σ ρ} {i : Nat} {s s' : σ} {c : UInt8}
    (hc : json[i]? = some c) (hb : body i s = .next s') : Run json body i s (i + 1) s' :=
  forUp_next (lt_of_getElem? hc) hb

/-- A loop body that scans JSON text: `F d s` says that in state `s` the loop is
outside strings, `d` levels below where it started.  Strings are passed over when
`P` holds of their content. -/
structure SkipsIf (json : Bytes) (body : Nat → σ → Ctl σ ρ) (P : Text → Bool) (F : Nat → σ → Prop) : Prop where
  tok : ∀ {i d s c}, json[i]? = some c → tokByte c ∨ isWs c → F d s →
    ∃ s', body i s = .next s' ∧ F d s'
  sep : ∀ {i d s c}, json[i]? = some c → c = 44 ∨ c = 58 → F (d + 1) s →
    ∃ s', body i s = .next s' ∧ F (d + 1) s'
  opn : ∀ {i d s c}, json[i]? = some c → c = 91 ∨ c = 123 → F d s →
    ∃ s', body i s = .next s' ∧ F (d + 1) s'
  cls : ∀ {i d s c}, json[i]? = some c → c = 93 ∨ c = 125 → F (d + 1) s →
    ∃ s', body i s = .next s' ∧ F d s'
  str : ∀ {i d s raw}, Seg json i (34 :: (raw ++ [34])) → strOk raw → P raw → PrevOk json i → F d s →
    ∃ s', Run json body i s (i + (raw.length + 2)) s' ∧ F d s'

variable {json : Bytes} {body : Nat → σ → Ctl σ ρ} {P : Text → Bool} {F : Nat → σ → Prop}

theorem SkipsIf.toks (H : SkipsIf json body P F) {t : Bytes} (ht : ∀ c ∈ t, tokByte c ∨ isWs c) :
    ∀ {i d s}, Seg json i t → F d s → ∃ s', Run json body i s (i + t.length) s' ∧ F d s' := by
  induction t with
  | nil => intro i d s _ hs; exact ⟨s, Run.refl, hs⟩
  | cons c t ih =>
    intro i d s hseg hs
    rw [seg_cons] at hseg
    obtain ⟨s1, hb, h1⟩ := H.tok hseg.1 (ht c (by simp)) hs
    obtain ⟨s2, hr, h2⟩ := ih (fun c hc => ht c (by simp [hc])) hseg.2 h1
    refine ⟨s2, (Run.next hseg.1 hb).trans ?_, h2⟩
    rw [List.length_cons, show i + (t.length + 1) = i + 1 + t.length by omega]
    exact hr

theorem SkipsIf.ws (H : SkipsIf json body P F) {t : Bytes} (ht : Ws t)
    {i d s} (h : Seg json i t) (hs : F d s) : ∃ s', Run json body i s (i + t.length) s' ∧ F d s' :=
  H.toks (fun c hc => Or.inr (by simp only [Ws, List.all_eq_true] at ht; exact ht c hc)) h hs

mutual
/-- Every well-formed value is passed over. -/
theorem SkipsIf.value (H : SkipsIf json body P F) : ∀ (v : Json) {i d s}, v.wf → v.allStr P → Seg json i v.render →
    PrevOk json i → F d s → ∃ s', Run json body i s (i + v.render.length) s' ∧ F d s'
  | .lit t, i, d, s, hw, _, hseg, _, hs => by
    rw [render_lit] at hseg ⊢
    simp only [Json.wf, Bool.and_eq_true, List.all_eq_true] at hw
    exact H.toks (fun c hc => Or.inl (hw.2 c hc)) hseg hs
  | .str raw, i, d, s, hw, ha, hseg, hp, hs => by
    rw [render_str] at hseg ⊢
    have := H.str hseg (by simpa [Json.wf] using hw) (by simpa [Json.allStr] using ha) hp hs
    simpa using this
  | .arr g es, i, d, s, hw, ha, hseg, hp, hs => by
    rw [render_arr, seg_cons, seg_append, seg_cons] at hseg
    obtain ⟨h1, h2, h3, _⟩ := hseg
    simp only [Json.wf, Bool.and_eq_true] at hw
    rw [Json.allStr] at ha
    obtain ⟨s1, hb1, hs1⟩ := H.opn h1 (Or.inl rfl) hs
    have mid : ∃ s2, Run json body (i + 1) s1
        (i + 1 + (if es.isEmpty then g else renderElems es).length) s2 ∧ F (d + 1) s2 := by
      by_cases he : es.isEmpty
      · simp only [he, if_true] at h2 ⊢
        exact H.ws hw.1 h2 hs1
      · simp only [he, Bool.false_eq_true, if_false] at h2 ⊢
        exact SkipsIf.elems H es H.sep hw.2 ha h2 (prevOk_succ h1 (by decide)) hs1
    obtain ⟨s2, hr2, hs2⟩ := mid
    obtain ⟨s3, hb3, hs3⟩ := H.cls h3 (Or.inl rfl) hs2
    refine ⟨s3, ?_, hs3⟩
    have := ((Run.next h1 hb1).trans hr2).trans (Run.next h3 hb3)
    rw [render_arr]
    exact Run.to this (by simp; omega)
  | .obj g ms, i, d, s, hw, ha, hseg, hp, hs => by
    rw [render_obj, seg_cons, seg_append, seg_cons] at hseg
    obtain ⟨h1, h2, h3, _⟩ := hseg
    simp only [Json.wf, Bool.and_eq_true] at hw
    rw [Json.allStr] at ha
    obtain ⟨s1, hb1, hs1⟩ := H.opn h1 (Or.inr rfl) hs
    have mid : ∃ s2, Run json body (i + 1) s1
        (i + 1 + (if ms.isEmpty then g else renderMembers ms).length) s2 ∧ F (d + 1) s2 := by
      by_cases he : ms.isEmpty
      · simp only [he, if_true] at h2 ⊢
        exact H.ws hw.1 h2 hs1
      · simp only [he, Bool.false_eq_true, if_false] at h2 ⊢
        exact SkipsIf.members H ms H.sep hw.2 ha h2 (prevOk_succ h1 (by decide)) hs1
    obtain ⟨s2, hr2, hs2⟩ := mid
    obtain ⟨s3, hb3, hs3⟩ := H.cls h3 (Or.inr rfl) hs2
    refine ⟨s3, ?_, hs3⟩
    have := ((Run.next h1 hb1).trans hr2).trans (Run.next h3 hb3)
    rw [render_obj]
    exact Run.to this (by simp; omega)

theorem SkipsIf.elems (H : SkipsIf json body P F) : ∀ (es : List (Elem Json)) {i d s},
    (∀ {i s c}, json[i]? = some c → c = 44 ∨ c = 58 → F d s → ∃ s', body i s = .next s' ∧ F d s') →
    wfElems es → allStrElems P es → Seg json i (renderElems es) → PrevOk json i → F d s →
    ∃ s', Run json body i s (i + (renderElems es).length) s' ∧ F d s'
  | [], i, d, s, _, _, _, _, _, hs => ⟨s, by simpa [renderElems] using Run.refl, hs⟩
  | ⟨l, v, r⟩ :: es, i, d, s, hsep, hw, ha, hseg, hp, hs => by
    rw [renderElems, seg_append, seg_append, seg_append] at hseg
    obtain ⟨h1, h2, h3, h4⟩ := hseg
    simp only [wfElems, Bool.and_eq_true] at hw
    obtain ⟨⟨⟨w1, w2⟩, w3⟩, w4⟩ := hw
    simp only [allStrElems, Bool.and_eq_true] at ha
    obtain ⟨s1, r1, hs1⟩ := H.ws w1 h1 hs
    obtain ⟨s2, r2, hs2⟩ := SkipsIf.value H v w2 ha.1 h2 (prevOk_ws h1 w1 hp) hs1
    obtain ⟨s3, r3, hs3⟩ := H.ws w3 h3 hs2
    by_cases he : es.isEmpty
    · refine ⟨s3, ?_, hs3⟩
      have := (r1.trans r2).trans r3
      rw [renderElems]
      simpa [he, Nat.add_assoc] using this
    · simp only [he, Bool.false_eq_true, if_false] at h4
      rw [seg_cons] at h4
      obtain ⟨s4, hb4, hs4⟩ := hsep h4.1 (Or.inl rfl) hs3
      obtain ⟨s5, r5, hs5⟩ := SkipsIf.elems H es hsep w4 ha.2 h4.2 (prevOk_succ h4.1 (by decide)) hs4
      refine ⟨s5, ?_, hs5⟩
      have := (((r1.trans r2).trans r3).trans (Run.next h4.1 hb4)).trans r5
      rw [renderElems]
      exact Run.to this (by simp [he]; omega)

theorem SkipsIf.members (H : SkipsIf json body P F) : ∀ (ms : List (Member Json)) {i d s},
    (∀ {i s c}, json[i]? = some c → c = 44 ∨ c = 58 → F d s → ∃ s', body i s = .next s' ∧ F d s') →
    wfMembers ms → allStrMembers P ms → Seg json i (renderMembers ms) → PrevOk json i → F d s →
    ∃ s', Run json body i s (i + (renderMembers ms).length) s' ∧ F d s'
  | [], i, d, s, _, _, _, _, _, hs => ⟨s, by simpa [renderMembers] using Run.refl, hs⟩
  | ⟨l, k, m, l2, v, r⟩ :: ms, i, d, s, hsep, hw, ha, hseg, hp, hs => by
    have hr : renderMembers (⟨l, k, m, l2, v, r⟩ :: ms) =
        l ++ ((34 :: (k ++ [34])) ++ (m ++ ([58] ++ (l2 ++ (v.render ++ (r ++
          (if ms.isEmpty then [] else 44 :: renderMembers ms))))))) := by
      simp [renderMembers]
    rw [hr] at hseg ⊢
    rw [seg_append, seg_append, seg_append, seg_append, seg_append, seg_append, seg_append] at hseg
    obtain ⟨h1, h2, h3, h4, h5, h6, h7, h8⟩ := hseg
    rw [seg_cons] at h4
    simp only [wfMembers, Bool.and_eq_true] at hw
    obtain ⟨⟨⟨⟨⟨⟨w1, w2⟩, w3⟩, w4⟩, w5⟩, w6⟩, w7⟩ := hw
    simp only [allStrMembers, Bool.and_eq_true] at ha
    obtain ⟨s1, r1, hs1⟩ := H.ws w1 h1 hs
    obtain ⟨s2, r2, hs2⟩ := H.str h2 w2 ha.1.1 (prevOk_ws h1 w1 hp) hs1
    obtain ⟨s3, r3, hs3⟩ := H.ws w3 h3 hs2
    obtain ⟨s4, b4, hs4⟩ := hsep h4.1 (Or.inr rfl) hs3
    obtain ⟨s5, r5, hs5⟩ := H.ws w4 h5 hs4
    obtain ⟨s6, r6, hs6⟩ := SkipsIf.value H v w5 ha.1.2 h6
      (prevOk_ws h5 w4 (prevOk_succ h4.1 (by decide))) hs5
    obtain ⟨s7, r7, hs7⟩ := H.ws w6 h7 hs6
    have hk : (34 :: (k ++ [34])).length = k.length + 2 := by simp
    rw [hk] at r3 h3 h4 b4 r5 h5 r6 h6 r7 h7 h8
    have base := (((((r1.trans r2).trans r3).trans (Run.next h4.1 b4)).trans r5).trans r6).trans r7
    by_cases he : ms.isEmpty
    · refine ⟨s7, ?_, hs7⟩
      exact base.to (by simp [he]; omega)
    · simp only [he, Bool.false_eq_true, if_false] at h8
      rw [seg_cons] at h8
      obtain ⟨s8, hb8, hs8⟩ := hsep h8.1 (Or.inl rfl) hs7
      obtain ⟨s9, r9, hs9⟩ := SkipsIf.members H ms hsep w7 ha.2 h8.2 (prevOk_succ h8.1 (by decide)) hs8
      refine ⟨s9, ?_, hs9⟩
      have := (base.trans (Run.next h8.1 hb8)).trans r9
      exact Run.to this (by simp [he]; omega)
end

mutual
theorem allStr_true : ∀ v : Json, v.allStr (fun _ => true)
  | .lit _ => by simp [Json.allStr]
  | .str _ => by simp [Json.allStr]
  | .arr _ es => by rw [Json.allStr]; exact allStrElems_true es
  | .obj _ ms => by rw [Json.allStr]; exact allStrMembers_true ms
theorem allStrElems_true : ∀ es : List (Elem Json), allStrElems (fun _ => true) es
  | [] => by simp [allStrElems]
  | ⟨_, v, _⟩ :: es => by simp [allStrElems, allStr_true v, allStrElems_true es]
theorem allStrMembers_true : ∀ ms : List (Member Json), allStrMembers (fun _ => true) ms
  | [] => by simp [allStrMembers]
  | ⟨_, _, _, _, v, _⟩ :: ms => by simp [allStrMembers, allStr_true v, allStrMembers_true ms]
end

/-- `SkipsIf` for all strings. -/
structure Skips (json : Bytes) (body : Nat → σ → Ctl σ ρ) (F : Nat → σ → Prop) : Prop where
  tok : ∀ {i d s c}, json[i]? = some c → tokByte c ∨ isWs c → F d s →
    ∃ s', body i s = .next s' ∧ F d s'
  sep : ∀ {i d s c}, json[i]? = some c → c = 44 ∨ c = 58 → F (d + 1) s →
    ∃ s', body i s = .next s' ∧ F (d + 1) s'
  opn : ∀ {i d s c}, json[i]? = some c → c = 91 ∨ c = 123 → F d s →
    ∃ s', body i s = .next s' ∧ F (d + 1) s'
  cls : ∀ {i d s c}, json[i]? = some c → c = 93 ∨ c = 125 → F (d + 1) s →
    ∃ s', body i s = .next s' ∧ F d s'
  str : ∀ {i d s raw}, Seg json i (34 :: (raw ++ [34])) → strOk raw → PrevOk json i → F d s →
    ∃ s', Run json body i s (i + (raw.length + 2)) s' ∧ F d s'

theorem Skips.cond (H : Skips json body F) : SkipsIf json body (fun _ => true) F :=
  ⟨H.tok, H.sep, H.opn, H.cls, fun h1 h2 _ h3 h4 => H.str h1 h2 h3 h4⟩

theorem Skips.toks (H : Skips json body F) {t : Bytes} (ht : ∀ c ∈ t, tokByte c ∨ isWs c)
    {i d s} (h : Seg json i t) (hs : F d s) : ∃ s', Run json body i s (i + t.length) s' ∧ F d s' :=
  H.cond.toks ht h hs

theorem Skips.ws (H : Skips json body F) {t : Bytes} (ht : Ws t)
    {i d s} (h : Seg json i t) (hs : F d s) : ∃ s', Run json body i s (i + t.length) s' ∧ F d s' :=
  H.cond.ws ht h hs

theorem Skips.value (H : Skips json body F) (v : Json) {i d s} (hw : v.wf) (h : Seg json i v.render)
    (hp : PrevOk json i) (hs : F d s) : ∃ s', Run json body i s (i + v.render.length) s' ∧ F d s' :=
  H.cond.value v hw (allStr_true v) h hp hs

theorem Skips.elems (H : Skips json body F) (es : List (Elem Json)) {i d s}
    (hsep : ∀ {i s c}, json[i]? = some c → c = 44 ∨ c = 58 → F d s → ∃ s', body i s = .next s' ∧ F d s')
    (hw : wfElems es) (h : Seg json i (renderElems es)) (hp : PrevOk json i) (hs : F d s) :
    ∃ s', Run json body i s (i + (renderElems es).length) s' ∧ F d s' :=
  H.cond.elems es hsep hw (allStrElems_true es) h hp hs

theorem Skips.members (H : Skips json body F) (ms : List (Member Json)) {i d s}
    (hsep : ∀ {i s c}, json[i]? = some c → c = 44 ∨ c = 58 → F d s → ∃ s', body i s = .next s' ∧ F d s')
    (hw : wfMembers ms) (h : Seg json i (renderMembers ms)) (hp : PrevOk json i) (hs : F d s) :
    ∃ s', Run json body i s (i + (renderMembers ms).length) s' ∧ F d s' :=
  H.cond.members ms hsep hw (allStrMembers_true ms) h hp hs

/-- A body that finds the end of a string by looking back over backslashes
passes over a string; the state after the closing quote may depend on its index. -/
theorem str_of_scan_at {F G F' : σ → Prop} {i : Nat} {s : σ} {raw : Bytes}
    (hopen : json[i]? = some 34 → PrevOk json i → F s → ∃ s', body i s = .next s' ∧ G s')
    (hin : ∀ {i s c}, json[i]? = some c → c ≠ 34 → G s → ∃ s', body i s = .next s' ∧ G s')
    (hesc : ∀ {i s}, json[i]? = some 34 → tb json i + 1 < i → tb json i % 2 = 1 → G s →
      ∃ s', body i s = .next s' ∧ G s')
    (hclose : ∀ {j s}, j = i + (raw.length + 1) → json[j]? = some 34 → tb json j + 1 < j →
      tb json j % 2 = 0 → G s → ∃ s', body j s = .next s' ∧ F' s')
    (hseg : Seg json i (34 :: (raw ++ [34]))) (hok : strOk raw)
    (hp : PrevOk json i) (hs : F s) :
    ∃ s', Run json body i s (i + (raw.length + 2)) s' ∧ F' s' := by
  have key : ∀ a, 0 < a → json[a]? = some 34 → ∀ raw' : Text, strOk raw' → ∀ (j : Nat) (s : σ),
      a < j → j + raw'.length = i + (raw.length + 1) → Seg json j (raw' ++ [34]) →
      tb json j % 2 = 0 → G s → ∃ s', Run json body j s (i + (raw.length + 2)) s' ∧ F' s' := by
    intro a ha0 ha
    refine strOk_ind ?_ ?_ ?_
    · intro j s hai he hseg htb hG
      rw [List.nil_append, seg_cons] at hseg
      have := tb_lt ha (by decide) j hai
      simp only [List.length_nil, Nat.add_zero] at he
      obtain ⟨s', hb, hF⟩ := hclose he hseg.1 (by omega) htb hG
      exact ⟨s', (Run.next hseg.1 hb).to (by omega), hF⟩
    · intro b r _ ih i s hai he hseg htb hG
      rw [List.cons_append, List.cons_append, seg_cons, seg_cons] at hseg
      obtain ⟨h1, h2, h3⟩ := hseg
      obtain ⟨s1, hb1, hG1⟩ := hin h1 (by decide) hG
      have htb1 := tb_succ_bs h1
      have : ∃ s2, body (i + 1) s1 = .next s2 ∧ G s2 := by
        by_cases hb : b = 34
        · subst hb
          have := tb_lt ha (by decide) (i + 1) (by omega)
          exact hesc h2 (by omega) (by omega) hG1
        · exact hin h2 hb hG1
      obtain ⟨s2, hb2, hG2⟩ := this
      have htb2 : tb json (i + 1 + 1) % 2 = 0 := by
        by_cases hb : b = 92
        · subst hb; rw [tb_succ_bs h2]; omega
        · rw [tb_succ_ne h2 hb]
      obtain ⟨s3, hr, hF⟩ := ih (i + 1 + 1) s2 (by omega) (by simp at he; omega) h3 htb2 hG2
      exact ⟨s3, ((Run.next h1 hb1).trans (Run.next h2 hb2)).trans hr, hF⟩
    · intro c r hc hc2 _ ih i s hai he hseg htb hG
      rw [List.cons_append, seg_cons] at hseg
      obtain ⟨s1, hb1, hG1⟩ := hin hseg.1 hc2 hG
      obtain ⟨s3, hr, hF⟩ := ih (i + 1) s1 (by omega) (by simp at he; omega) hseg.2
        (by rw [tb_succ_ne hseg.1 hc]) hG1
      exact ⟨s3, (Run.next hseg.1 hb1).trans hr, hF⟩
  rw [seg_cons] at hseg
  obtain ⟨s1, hb, hG⟩ := hopen hseg.1 hp hs
  obtain ⟨s2, hr, hF⟩ := key i hp.1 hseg.1 raw hok (i + 1) s1 (by omega) (by omega) hseg.2
    (by rw [tb_succ_ne hseg.1 (by decide)]) hG
  exact ⟨s2, (Run.next hseg.1 hb).trans hr, hF⟩

/-- `str_of_scan_at` for a body that does not record positions. -/
theorem str_of_scan {F G : σ → Prop}
    (hopen : ∀ {i s}, json[i]? = some 34 → PrevOk json i → F s → ∃ s', body i s = .next s' ∧ G s')
    (hin : ∀ {i s c}, json[i]? = some c → c ≠ 34 → G s → ∃ s', body i s = .next s' ∧ G s')
    (hesc : ∀ {i s}, json[i]? = some 34 → tb json i + 1 < i → tb json i % 2 = 1 → G s →
      ∃ s', body i s = .next s' ∧ G s')
    (hclose : ∀ {i s}, json[i]? = some 34 → tb json i + 1 < i → tb json i % 2 = 0 → G s →
      ∃ s', body i s = .next s' ∧ F s')
    {i : Nat} {s : σ} {raw : Bytes} (hseg : Seg json i (34 :: (raw ++ [34]))) (hok : strOk raw)
    (hp : PrevOk json i) (hs : F s) :
    ∃ s', Run json body i s (i + (raw.length + 2)) s' ∧ F s' :=
  str_of_scan_at hopen hin hesc (fun _ h1 h2 h3 h4 => hclose h1 h2 h3 h4) hseg hok hp hs

/-- A body that jumps over the byte after a backslash passes over a string. -/
theorem str_of_jump {F G : σ → Prop}
    (hopen : ∀ {i s}, json[i]? = some 34 → F s → ∃ s', body i s = .next s' ∧ G s')
    (hin : ∀ {i s c}, json[i]? = some c → c ≠ 34 → c ≠ 92 → G s → ∃ s', body i s = .next s' ∧ G s')
    (hesc : ∀ {i s}, json[i]? = some 92 → G s → ∃ s', body i s = .goto (i + 1) s' ∧ G s')
    (hclose : ∀ {i s}, json[i]? = some 34 → G s → ∃ s', body i s = .next s' ∧ F s')
    {i : Nat} {s : σ} {raw : Bytes} (hseg : Seg json i (34 :: (raw ++ [34]))) (hok : strOk raw)
    (hs : F s) :
    ∃ s', Run json body i s (i + (raw.length + 2)) s' ∧ F s' := by
  have key : ∀ raw : Text, strOk raw → ∀ (i : Nat) (s : σ), Seg json i (raw ++ [34]) → G s →
      ∃ s', Run json body i s (i + (raw.length + 1)) s' ∧ F s' := by
    refine strOk_ind ?_ ?_ ?_
    · intro i s hseg hG
      rw [List.nil_append, seg_cons] at hseg
      obtain ⟨s', hb, hF⟩ := hclose hseg.1 hG
      exact ⟨s', Run.next hseg.1 hb, hF⟩
    · intro b r _ ih i s hseg hG
      rw [List.cons_append, List.cons_append, seg_cons, seg_cons] at hseg
      obtain ⟨h1, h2, h3⟩ := hseg
      obtain ⟨s1, hb1, hG1⟩ := hesc h1 hG
      obtain ⟨s3, hr, hF⟩ := ih (i + 1 + 1) s1 h3 hG1
      have h0 : Run json body i s (i + 1 + 1) s1 :=
        forUp_goto (lt_of_getElem? h1) hb1 (by omega)
      exact ⟨s3, (h0.trans hr).to (by simp; omega), hF⟩
    · intro c r hc hc2 _ ih i s hseg hG
      rw [List.cons_append, seg_cons] at hseg
      obtain ⟨s1, hb1, hG1⟩ := hin hseg.1 hc2 hc hG
      obtain ⟨s3, hr, hF⟩ := ih (i + 1) s1 hseg.2 hG1
      exact ⟨s3, ((Run.next hseg.1 hb1).trans hr).to (by simp; omega), hF⟩
  rw [seg_cons] at hseg
  obtain ⟨s1, hb, hG⟩ := hopen hseg.1 hs
  obtain ⟨s2, hr, hF⟩ := key raw hok (i + 1) s1 hseg.2 hG
  exact ⟨s2, ((Run.next hseg.1 hb).trans hr).to (by omega), hF⟩

end

end Jin
