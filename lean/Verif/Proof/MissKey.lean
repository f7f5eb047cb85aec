import Verif.Proof.MissArr
/-!
# Proof.MissKey — a key that is not there
-/

namespace Jin
open Spec

section
variable {json : Bytes} {path : List Bytes}

/-- All keys differ from the one looked for: the search gets to the colon of the last member. -/
theorem key_last : ∀ (ms : List (Member Json)) {i : Nat} {rest : Bytes} {t : KeySt}, ms ≠ [] →
    t.level = t.k + 1 → t.inQuote = false → t.found = false → wfMembers ms → Seg json i (renderMembers ms ++ rest) →
    PrevOk json i → (∀ m ∈ ms, m.key ≠ t.cur) →
    ∃ m ci st sp, ms.getLast? = some m ∧ Run json (keyBody json path) i t ci { t with start := st, stop := sp } ∧
      json[ci]? = some 58 ∧ sameKey json t.cur st sp = false ∧ Ws m.l2 ∧ m.v.wf ∧ Ws m.r ∧
      Seg json (ci + 1) (m.l2 ++ (m.v.render ++ (m.r ++ rest))) ∧
      ci + 1 + m.l2.length + m.v.render.length + m.r.length = i + (renderMembers ms).length ∧
      Seg json st (m.key ++ [34]) ∧ sp = st + m.key.length ∧ sp < ci
  | [], _, _, _, h, _, _, _, _, _, _, _ => absurd rfl h
  | m :: ms, i, rest, t, _, hl, hq, hf, hw, hs, hp, hne => by
    by_cases he : ms = []
    · subst he
      obtain ⟨r1, hsame⟩ := key_to_colon (path := path) hl hq hf hw hs hp
      obtain ⟨_, _, _, h2, _, _, h4, w4, h5, w5, h6, w6, h7, _, h8⟩ := member_parts hw hs
      refine ⟨m, _, _, _, rfl, r1, h4, (hsame t.cur).trans (decide_eq_false (hne m (by simp))), w4, w5, w6, ?_, ?_,
        (seg_cons.1 h2).2, by omega, by omega⟩
      rotate_left
      · rw [renderMembers_cons]; simp; omega
      rw [seg_append, seg_append, seg_append]
      refine ⟨h5, h6, h7, ?_⟩
      simp only [List.isEmpty_nil, if_true, List.nil_append] at h8
      rw [show i + m.l.length + (m.key.length + 2) + m.m.length + 1 + m.l2.length + m.v.render.length + m.r.length =
        i + memberLen m by unfold memberLen; omega]
      exact h8
    · obtain ⟨r1, h1, h2⟩ := key_mismatch (path := path) hl hq hf hw hs hp (hne m (by simp)) he
      obtain ⟨m', ci, st, sp, g1, g2, g3, g4, g5, g6, g7, g8, g9, g10⟩ := key_last ms (t := { t with start := i + m.l.length + 1, stop := i + m.l.length + (m.key.length + 1) })
        he hl hq hf ((wfMembers_cons m ms).1 hw).2.2.2.2.2.2 h1 h2 (fun x hx => hne x (by simp [hx]))
      refine ⟨m', ci, st, sp, ?_, r1.trans g2, g3, g4, g5, g6, g7, g8, ?_, g10⟩
      · rw [List.getLast?_cons, g1]; rfl
      · rw [g9, renderMembers_cons, if_neg (by simpa using he)]; simp [memberLen]; omega

/-- At the last colon the jump loop passes the value and the closing brace. -/
theorem jump_close {m : Member Json} {ci k : Nat} {cur rest : Bytes} (h4 : json[ci]? = some 58) (w4 : Ws m.l2) (w5 : m.v.wf)
    (w6 : Ws m.r) (hs : Seg json (ci + 1) (m.l2 ++ (m.v.render ++ (m.r ++ 125 :: rest)))) :
    ∃ j, Run json (jumpBody json k cur) ci ⟨k + 1, false, none⟩ j ⟨k, false, none⟩ ∧ Seg json j rest ∧ PrevOk json j ∧
      j = ci + 1 + m.l2.length + m.v.render.length + m.r.length + 1 := by
  rw [seg_append, seg_append, seg_append, seg_cons] at hs
  obtain ⟨h5, h6, h7, h8, h9⟩ := hs
  have r0 : Run json (jumpBody json k cur) ci ⟨k + 1, false, none⟩ (ci + 1) ⟨k + 1, false, none⟩ :=
    Run.next h4 (by simp [jumpBody, h4, isJSONChar])
  obtain ⟨s, hr, rfl⟩ := elem_run (jump_skips (json := json) (k := k) (cur := cur)) (d := 0) w4 w5 w6 h5 h6 h7
    (prevOk_succ h4 (by decide)) rfl
  refine ⟨_, (r0.trans hr).trans (Run.next h8 ?_), h9, prevOk_succ h8 (by decide), rfl⟩
  simp [jumpBody, h8, isJSONChar]

/-- What the key search does at a colon whose key is another one. -/
theorem keyBody_jump {ci : Nat} {t : KeySt} (h4 : json[ci]? = some 58) (hl : t.level = t.k + 1) (hq : t.inQuote = false)
    (hs : sameKey json t.cur t.start t.stop = false) :
    keyBody json path ci t = match forUp json.length (jumpBody json t.k t.cur) ci ⟨t.k + 1, false, none⟩ with
      | .ret r => .ret r
      | .done js => .goto (js.stop.getD ci) { t with inQuote := js.inQuote } := by
  simp [keyBody, h4, isJSONChar, hl, hq, hs]
  cases forUp json.length (jumpBody json t.k t.cur) ci ⟨t.k + 1, false, none⟩ <;> rfl

/-! ### Passing over bytes at a level that is not searched -/

theorem key_bytes {b : Bytes} : ∀ {i : Nat} {t : KeySt}, noBracket b → Seg json i b → t.level ≠ t.k + 1 → t.inQuote = false →
    Run json (keyBody json path) i t (i + b.length) t := by
  induction b with
  | nil => intro i t _ _ _ _; exact Run.refl
  | cons c b ih =>
    intro i t hb hs hl hq
    rw [seg_cons] at hs
    simp only [noBracket, List.all_cons, Bool.and_eq_true, bne_iff_ne, ne_eq] at hb
    obtain ⟨⟨⟨⟨a1, a2⟩, a3⟩, a4⟩, hb⟩ := hb
    have h1 : Run json (keyBody json path) i t (i + 1) t := by
      refine Run.next hs.1 ?_
      by_cases h34 : c = 34
      · subst h34; simp [keyBody, hs.1, isJSONChar, hl]
      · by_cases h58 : c = 58
        · subst h58; simp [keyBody, hs.1, isJSONChar, hl, hq]
        · simp [keyBody, hs.1, isJSONChar, h34, h58, a1, a2, a3, a4]
    exact (h1.trans (ih (by simpa [noBracket] using hb) hs.2 hl hq)).to (by simp; omega)

/-- The key search below the level searched passes over values without brackets in strings. -/
theorem key_skips (t : KeySt) (hl : t.level = t.k + 1) (hq : t.inQuote = false) (hf : t.found = false) :
    SkipsIf json (keyBody json path) noBracket
      (fun d s => ∃ st sp, s = { t with level := t.level + d, start := st, stop := sp }) where
  tok := by
    rintro i d s c hc ht ⟨st, sp, rfl⟩
    exact ⟨_, by simp [keyBody, hc, isJSONChar_tok ht], st, sp, rfl⟩
  sep := by
    rintro i d s c hc ht ⟨st, sp, rfl⟩
    refine ⟨_, ?_, st, sp, rfl⟩
    rcases ht with rfl | rfl <;> simp [keyBody, hc, isJSONChar, hl, hq]
  opn := by
    rintro i d s c hc ht ⟨st, sp, rfl⟩
    refine ⟨_, ?_, st, sp, rfl⟩
    rcases ht with rfl | rfl <;> simp [keyBody, hc, isJSONChar, hq, hf] <;> omega
  cls := by
    rintro i d s c hc ht ⟨st, sp, rfl⟩
    refine ⟨_, ?_, st, sp, rfl⟩
    have : ¬ (t.level + (d + 1) < t.k + 1) := by omega
    rcases ht with rfl | rfl <;> simp [keyBody, hc, isJSONChar, hq, this] <;> omega
  str := by
    rintro i d s raw hseg hok hP hp ⟨st, sp, rfl⟩
    cases d with
    | zero =>
      refine ⟨_, key_str (path := path) (t := { t with level := t.level + 0, start := st, stop := sp }) hl hq hf hseg hok hp, ?_⟩
      exact ⟨_, _, rfl⟩
    | succ d =>
      refine ⟨_, Run.to (key_bytes (path := path) (b := 34 :: (raw ++ [34])) (t := { t with level := t.level + (d + 1), start := st, stop := sp })
        ?_ hseg (by simp only; omega) hq) (by simp), st, sp, rfl⟩
      simp only [noBracket, List.all_cons, List.all_append] at hP ⊢
      rw [hP]; rfl

/-- Whitespace up to the end of the text. -/
theorem key_end {w : Bytes} {i : Nat} {t : KeySt} (hw : Ws w) (hs : Seg json i w) (he : i + w.length = json.length) :
    forUp json.length (keyBody json path) i t = .done t := by
  rw [key_ws hw hs, he, forUp_end (Nat.le_refl _)]

theorem jump_ws {k : Nat} {cur w : Bytes} : ∀ {i : Nat} {t : JumpSt}, Ws w → Seg json i w →
    Run json (jumpBody json k cur) i t (i + w.length) t := by
  induction w with
  | nil => intro i a _ _; exact Run.refl
  | cons b w ih =>
    intro i a hw hs
    rw [seg_cons] at hs
    rw [ws_cons, Bool.and_eq_true] at hw
    have h1 : Run json (jumpBody json k cur) i a (i + 1) a :=
      Run.next hs.1 (by simp [jumpBody, hs.1, isJSONChar_tok (Or.inr hw.1)])
    exact (h1.trans (ih hw.2 hs.2)).to (by simp; omega)

/-- A key that the root object does not have. -/
theorem root_miss {g : Text} {ms : List (Member Json)} {i : Nat} {t : KeySt} {trail : Bytes}
    (hw : (Json.obj g ms).wf) (hs : Seg json i ((Json.obj g ms).render ++ trail)) (ht : Ws trail)
    (he : i + (Json.obj g ms).render.length + trail.length = json.length)
    (hl : t.level = t.k + 1) (hq : t.inQuote = false) (hf : t.found = false)
    (hne : ∀ m ∈ ms, m.key ≠ t.cur)
    (hlast : ∀ m, ms.getLast? = some m → m.v.isContainer = false ∨ m.v.allStr noBracket) :
    ∃ t', forUp json.length (keyBody json path) (i + 1) t = .done t' ∧ t'.found = false ∧ t'.cur = t.cur := by
  rw [render_obj] at hs he
  rw [List.cons_append, seg_cons, List.append_assoc] at hs
  obtain ⟨h1, h2⟩ := hs
  rw [wf_obj] at hw
  simp only [List.length_cons, List.length_append, List.length_nil] at he
  by_cases hms : ms = []
  · subst hms
    simp only [List.isEmpty_nil, if_true] at h2 he
    rw [seg_append, List.singleton_append, seg_cons] at h2
    obtain ⟨h2, h3, h4⟩ := h2
    refine ⟨{ t with level := t.level - 1 }, ?_, hf, rfl⟩
    rw [key_ws hw.1 h2, forUp_next (s' := { t with level := t.level - 1 }) (lt_of_getElem? h3)
      (by simp [keyBody, h3, isJSONChar, hq, hl]), key_end ht h4 (by omega)]
  · rw [if_neg (by simpa using hms)] at h2 he
    obtain ⟨m, ci, st, sp, g1, g2, g3, g4, w4, w5, w6, g5, g6, -⟩ := key_last (path := path) ms hms hl hq hf hw.2
      (by simpa using h2) (prevOk_succ h1 (by decide)) hne
    rw [g2]
    have hj : forUp json.length (jumpBody json t.k t.cur) ci ⟨t.k + 1, false, none⟩ = .done ⟨t.k, false, none⟩ := by
      obtain ⟨j, hj, hj2, -, hj3⟩ := jump_close (k := t.k) (cur := t.cur) g3 w4 w5 w6 g5
      rw [hj, jump_ws ht hj2, forUp_end (by omega)]
    rw [forUp_goto (s' := { t with start := st, stop := sp }) (j := ci) (lt_of_getElem? g3) (by
      rw [keyBody_jump (t := { t with start := st, stop := sp }) g3 hl hq g4]
      simp only [hj, hq]; rfl) (Nat.le_refl _)]
    rw [seg_append, seg_append, seg_append, seg_cons] at g5
    obtain ⟨s1, s2, s3, s4, s5⟩ := g5
    have hv : ∃ st' sp', Run json (keyBody json path) (ci + 1 + m.l2.length) { t with start := st, stop := sp }
        (ci + 1 + m.l2.length + m.v.render.length) { t with start := st', stop := sp' } := by
      have hp := prevOk_ws s1 w4 (prevOk_succ g3 (by decide))
      have H := key_skips (json := json) (path := path) { t with start := st, stop := sp } hl hq hf
      rcases hlast m g1 with hc | hc
      · cases hm : m.v with
        | lit x =>
          rw [hm] at s2 w5
          obtain ⟨s', hr, st', sp', rfl⟩ := H.value (.lit x) (d := 0) w5 (by simp [Json.allStr]) s2 hp ⟨st, sp, rfl⟩
          exact ⟨st', sp', hr⟩
        | str x =>
          rw [hm, render_str] at s2
          rw [hm] at w5
          exact ⟨_, _, Run.to (key_str (path := path) (t := { t with start := st, stop := sp }) hl hq hf s2 (by simpa [Json.wf] using w5) hp)
            (by simp)⟩
        | arr _ _ => rw [hm] at hc; simp [Json.isContainer] at hc
        | obj _ _ => rw [hm] at hc; simp [Json.isContainer] at hc
      · obtain ⟨s', hr, st', sp', rfl⟩ := H.value m.v (d := 0) w5 hc s2 hp ⟨st, sp, rfl⟩
        exact ⟨st', sp', hr⟩
    obtain ⟨st', sp', hv⟩ := hv
    refine ⟨{ t with start := st', stop := sp', level := t.level - 1 }, ?_, hf, rfl⟩
    rw [key_ws w4 s1, hv, key_ws w6 s3, forUp_next (s' := { t with start := st', stop := sp', level := t.level - 1 }) (lt_of_getElem? s4)
      (by simp [keyBody, s4, isJSONChar, hq, hl]), key_end ht s5 (by omega)]

/-! ### Nested objects -/

theorem jump_str {k L : Nat} {cur : Bytes} {i : Nat} {raw : Bytes} (hseg : Seg json i (34 :: (raw ++ [34]))) (hok : strOk raw)
    (hp : PrevOk json i) : Run json (jumpBody json k cur) i ⟨L, false, none⟩ (i + (raw.length + 2)) ⟨L, false, none⟩ := by
  have := str_of_scan (json := json) (body := jumpBody json k cur) (F := fun s : JumpSt => s = ⟨L, false, none⟩)
      (G := fun s : JumpSt => s = ⟨L, true, none⟩) ?_ ?_ ?_ ?_ hseg hok hp rfl
  · obtain ⟨s', hr, rfl⟩ := this; exact hr
  · rintro i s hc hp rfl
    exact ⟨_, by simp [jumpBody, hc, isJSONChar, hp.scan], rfl⟩
  · rintro i s c hc hne rfl
    refine ⟨_, ?_, rfl⟩
    by_cases h : isJSONChar true false c <;> simp [jumpBody, hc, h, hne]
  · rintro i s hc h1 h2 rfl
    exact ⟨_, by simp [jumpBody, hc, isJSONChar, quoteScan_escaped h1 h2], rfl⟩
  · rintro i s hc h1 h2 rfl
    exact ⟨_, by simp [jumpBody, hc, isJSONChar, quoteScan_real h1 h2], rfl⟩

/-- A later sibling that is a scalar or has at most one entry is passed over. -/
theorem jump_narrow {k : Nat} {cur : Bytes} {v : Json} {i : Nat} (hw : v.wf) (hs : Seg json i v.render) (hp : PrevOk json i)
    (hn : v.isContainer = false ∨ v.size ≤ 1) :
    Run json (jumpBody json k cur) i ⟨k, false, none⟩ (i + v.render.length) ⟨k, false, none⟩ := by
  have H := jump_skips (json := json) (k := k) (cur := cur)
  cases v with
  | lit t =>
    rw [render_lit] at hs ⊢
    simp only [Json.wf, Bool.and_eq_true, List.all_eq_true] at hw
    clear H hp hn
    replace hw := hw.2
    induction t generalizing i with
    | nil => exact Run.refl
    | cons c t ih =>
      rw [seg_cons] at hs
      have h1 : Run json (jumpBody json k cur) i ⟨k, false, none⟩ (i + 1) ⟨k, false, none⟩ :=
        Run.next hs.1 (by simp [jumpBody, hs.1, isJSONChar_tok (Or.inl (hw c (by simp)))])
      exact (h1.trans (ih hs.2 (fun c hc => hw c (by simp [hc])))).to (by simp; omega)
  | str raw =>
    rw [render_str] at hs ⊢
    exact (jump_str hs (by simpa [Json.wf] using hw) hp).to (by simp)
  | arr g es =>
    rw [render_arr, seg_cons, seg_append, seg_cons] at hs
    obtain ⟨h1, h2, h3, -⟩ := hs
    rw [wf_arr] at hw
    have r0 : Run json (jumpBody json k cur) i ⟨k, false, none⟩ (i + 1) ⟨k + 1, false, none⟩ :=
      Run.next h1 (by simp [jumpBody, h1, isJSONChar])
    have r2 : Run json (jumpBody json k cur) (i + 1 + (if es.isEmpty then g else renderElems es).length) ⟨k + 1, false, none⟩
        (i + 1 + (if es.isEmpty then g else renderElems es).length + 1) ⟨k, false, none⟩ := by
      generalize i + 1 + (if es.isEmpty then g else renderElems es).length = j at h3
      exact Run.next h3 (by simp [jumpBody, h3, isJSONChar])
    have r1 : Run json (jumpBody json k cur) (i + 1) ⟨k + 1, false, none⟩
        (i + 1 + (if es.isEmpty then g else renderElems es).length) ⟨k + 1, false, none⟩ := by
      rcases hn with hn | hn
      · simp [Json.isContainer] at hn
      · match es, hn with
        | [], _ => exact jump_ws hw.1 h2
        | [e], _ =>
          simp only [List.isEmpty_cons, Bool.false_eq_true, if_false, renderElems_cons, List.isEmpty_nil, if_true,
            List.append_nil] at h2 ⊢
          rw [seg_append, seg_append] at h2
          rw [wfElems_cons] at hw
          obtain ⟨s, hr, rfl⟩ := elem_run H (d := 0) hw.2.1 hw.2.2.1 hw.2.2.2.1 h2.1 h2.2.1 h2.2.2 (prevOk_succ h1 (by decide)) rfl
          exact hr.to (by simp; omega)
        | _ :: _ :: _, hn => simp [Json.size] at hn
    rw [render_arr]
    exact ((r0.trans r1).trans r2).to (by simp; omega)
  | obj g ms =>
    rw [render_obj, seg_cons, seg_append, seg_cons] at hs
    obtain ⟨h1, h2, h3, -⟩ := hs
    rw [wf_obj] at hw
    have r0 : Run json (jumpBody json k cur) i ⟨k, false, none⟩ (i + 1) ⟨k + 1, false, none⟩ :=
      Run.next h1 (by simp [jumpBody, h1, isJSONChar])
    have r2 : Run json (jumpBody json k cur) (i + 1 + (if ms.isEmpty then g else renderMembers ms).length) ⟨k + 1, false, none⟩
        (i + 1 + (if ms.isEmpty then g else renderMembers ms).length + 1) ⟨k, false, none⟩ := by
      generalize i + 1 + (if ms.isEmpty then g else renderMembers ms).length = j at h3
      exact Run.next h3 (by simp [jumpBody, h3, isJSONChar])
    have r1 : Run json (jumpBody json k cur) (i + 1) ⟨k + 1, false, none⟩
        (i + 1 + (if ms.isEmpty then g else renderMembers ms).length) ⟨k + 1, false, none⟩ := by
      rcases hn with hn | hn
      · simp [Json.isContainer] at hn
      · match ms, hn with
        | [], _ => exact jump_ws hw.1 h2
        | [m], _ =>
          simp only [List.isEmpty_cons, Bool.false_eq_true, if_false] at h2 ⊢
          obtain ⟨w1, s1, w2, s2, w3, s3, h4, w4, s5, w5, s6, w6, s7, -⟩ := member_parts (rest := []) hw.2 (by simpa using h2)
          have q1 := jump_ws (k := k) (cur := cur) (t := ⟨k + 1, false, none⟩) w1 s1
          have q2 := jump_str (k := k) (L := k + 1) (cur := cur) s2 w2 (prevOk_ws s1 w1 (prevOk_succ h1 (by decide)))
          have q3 := jump_ws (k := k) (cur := cur) (t := ⟨k + 1, false, none⟩) w3 s3
          have q4 : Run json (jumpBody json k cur) _ ⟨k + 1, false, none⟩ _ ⟨k + 1, false, none⟩ :=
            Run.next h4 (by simp [jumpBody, h4, isJSONChar])
          obtain ⟨s, q5, rfl⟩ := elem_run H (d := 0) w4 w5 w6 s5 s6 s7 (prevOk_succ h4 (by decide)) rfl
          exact ((((q1.trans q2).trans q3).trans q4).trans q5).to (by rw [renderMembers_cons]; simp; omega)
        | _ :: _ :: _, hn => simp [Json.size] at hn
    rw [render_obj]
    exact ((r0.trans r1).trans r2).to (by simp; omega)

/-- The same for a member. -/
theorem jump_narrow_member {k : Nat} {cur : Bytes} {m : Member Json} {i : Nat} (hw : wfMembers [m]) (hs : Seg json i (memText m))
    (hp : PrevOk json i) (hn : m.v.isContainer = false ∨ m.v.size ≤ 1) :
    Run json (jumpBody json k cur) i ⟨k, false, none⟩ (i + (memText m).length) ⟨k, false, none⟩ := by
  rw [wfMembers_cons] at hw
  obtain ⟨w1, w2, w3, w4, w5, w6, w7⟩ := hw
  have e : memText m = (34 :: (m.key ++ [34])) ++ (m.m ++ ([58] ++ (m.l2 ++ m.v.render))) := by simp [memText]
  rw [e, seg_append, seg_append, seg_append, seg_append] at hs
  obtain ⟨s1, s2, s3, s4, s5⟩ := hs
  replace s3 := (seg_cons.1 s3).1
  have q1 := jump_str (k := k) (L := k) (cur := cur) s1 w2 hp
  have q2 := jump_ws (k := k) (cur := cur) (t := ⟨k, false, none⟩) w3 s2
  have q3 : ∀ {a : Nat}, json[a]? = some 58 → Run json (jumpBody json k cur) a ⟨k, false, none⟩ (a + 1) ⟨k, false, none⟩ :=
    fun h => Run.next h (by simp [jumpBody, h, isJSONChar])
  have q3 := q3 s3
  have q4 := jump_ws (k := k) (cur := cur) (t := ⟨k, false, none⟩) w4 s4
  have q5 := jump_narrow (k := k) (cur := cur) w5 s5 (prevOk_ws s4 w4 (prevOk_succ s3 (by decide))) hn
  have q1' := q1.to (show i + (m.key.length + 2) = i + (34 :: (m.key ++ [34])).length by simp)
  exact ((((q1'.trans q2).trans q3).trans q4).trans q5).to (by rw [e]; simp; omega)

/-- Later entries, each of which is passed over. -/
theorem jump_tail {k : Nat} {cur : Bytes} (ys : List Ent)
    (hy : ∀ y ∈ ys, Ws y.l ∧ Ws y.r ∧ ∀ i, Seg json i y.x → PrevOk json i →
      Run json (jumpBody json k cur) i ⟨k, false, none⟩ (i + y.x.length) ⟨k, false, none⟩) :
    ∀ {i : Nat}, Seg json i (tailEnt ys) →
      Run json (jumpBody json k cur) i ⟨k, false, none⟩ (i + (tailEnt ys).length) ⟨k, false, none⟩ := by
  induction ys with
  | nil => intro i _; exact Run.refl
  | cons y ys ih =>
    intro i hs
    rw [tailEnt_ne (xs := y :: ys) (by simp), renderEnt_cons] at hs ⊢
    rw [seg_cons, seg_append, seg_append, seg_append] at hs
    obtain ⟨s0, s1, s2, s3, s4⟩ := hs
    obtain ⟨w1, w2, hx⟩ := hy y (by simp)
    have q0 : Run json (jumpBody json k cur) i ⟨k, false, none⟩ (i + 1) ⟨k, false, none⟩ :=
      Run.next s0 (by simp [jumpBody, s0, isJSONChar])
    have q1 := jump_ws (k := k) (cur := cur) (t := ⟨k, false, none⟩) w1 s1
    have q2 := hx _ s2 (prevOk_ws s1 w1 (prevOk_succ s0 (by decide)))
    have q3 := jump_ws (k := k) (cur := cur) (t := ⟨k, false, none⟩) w2 s3
    have q4 := ih (fun y hy' => hy y (by simp [hy'])) s4
    exact ((((q0.trans q1).trans q2).trans q3).trans q4).to (by simp; omega)

/-- A key that a non-empty nested object does not have. -/
theorem nested_miss {g : Text} {ms : List (Member Json)} {i : Nat} {t : KeySt} {r tail : Bytes} {c : UInt8}
    (hw : (Json.obj g ms).wf) (hms : ms ≠ []) (hs : Seg json i ((Json.obj g ms).render ++ (r ++ (tail ++ [c])))) (hr : Ws r)
    (hc : c = 93 ∨ c = 125) (hl : t.level = t.k + 1) (hq : t.inQuote = false) (hf : t.found = false)
    (hne : ∀ m ∈ ms, m.key ≠ t.cur)
    (htail : ∀ j, Seg json j tail → Run json (jumpBody json t.k t.cur) j ⟨t.k, false, none⟩ (j + tail.length) ⟨t.k, false, none⟩) :
    forUp json.length (keyBody json path) (i + 1) t = .ret (.err (.keyNotFound t.cur)) := by
  rw [render_obj, if_neg (by simpa using hms), List.cons_append, seg_cons, List.append_assoc] at hs
  obtain ⟨h1, h2⟩ := hs
  rw [wf_obj] at hw
  obtain ⟨m, ci, st, sp, g1, g2, g3, g4, w4, w5, w6, g5, g6, -⟩ := key_last (path := path) ms hms hl hq hf hw.2
    h2 (prevOk_succ h1 (by decide)) hne
  rw [g2]
  have hj : forUp json.length (jumpBody json t.k t.cur) ci ⟨t.k + 1, false, none⟩ = .ret (.err (.keyNotFound t.cur)) := by
    obtain ⟨j, hj, hj2, -, hj3⟩ := jump_close (k := t.k) (cur := t.cur) g3 w4 w5 w6 g5
    rw [List.append_eq, List.nil_append, seg_append, seg_append, seg_cons] at hj2
    obtain ⟨a1, a2, a3, -⟩ := hj2
    rw [hj, jump_ws hr a1, htail _ a2]
    refine forUp_ret (lt_of_getElem? a3) ?_
    rcases hc with rfl | rfl <;> simp [jumpBody, a3, isJSONChar]
  refine forUp_ret (lt_of_getElem? g3) ?_
  rw [keyBody_jump (t := { t with start := st, stop := sp }) g3 hl hq g4]
  simp only [hj]

/-- A key of an empty nested object. -/
theorem nested_miss_empty {g : Text} {i : Nat} {t : KeySt} {tail : Bytes} {c : UInt8}
    (hw : (Json.obj g []).wf) (hs : Seg json i ((Json.obj g []).render ++ (tail ++ [c])))
    (hc : c = 93 ∨ c = 125) (hl : t.level = t.k + 1) (hq : t.inQuote = false)
    (htail : noBracket tail) :
    forUp json.length (keyBody json path) (i + 1) t = .ret (.err (.keyNotFound t.cur)) := by
  rw [render_obj, List.cons_append, seg_cons, List.append_assoc, seg_append, List.singleton_append, seg_cons, seg_append, seg_cons] at hs
  obtain ⟨h1, h2, h3, h4, h5, -⟩ := hs
  simp only [List.isEmpty_nil, if_true] at h2 h3 h4 h5
  rw [wf_obj] at hw
  rw [key_ws hw.1 h2, forUp_next (s' := { t with level := t.level - 1 }) (lt_of_getElem? h3)
    (by simp [keyBody, h3, isJSONChar, hq, hl]), key_bytes (t := { t with level := t.level - 1 }) htail h4 (by simp only; omega) hq]
  refine forUp_ret (lt_of_getElem? h5) ?_
  rcases hc with rfl | rfl <;> simp [keyBody, h5, isJSONChar, hq, hl]

end


/-! ### `core` -/

/-- The entries after slot `n`. -/
theorem later_ent {u : Json} {x : Text} {n : Nat} {xs ys : List Ent} {e y : Ent} (hu : u.wf) (hx : u.slot? x = some n)
    (he : ents u = xs ++ e :: ys) (hl : xs.length = n) (hy : y ∈ ys) :
    (∃ a : Elem Json, y = elemEnt a ∧ Entry.elem a.v ∈ u.later x ∧ wfElems [a]) ∨
    (∃ m : Member Json, y = memEnt m ∧ Entry.member m.key m.m m.l2 m.v ∈ u.later x ∧ wfMembers [m]) := by
  have hys : ys = (ents u).drop (n + 1) := by
    rw [he, ← hl, show xs ++ e :: ys = (xs ++ [e]) ++ ys by simp, List.drop_left' (by simp)]
  rw [hys] at hy
  cases u with
  | lit t => simp [ents] at hy
  | str t => simp [ents] at hy
  | arr g es =>
    left
    simp only [ents, ← List.map_drop, List.mem_map] at hy
    obtain ⟨a, ha, rfl⟩ := hy
    refine ⟨a, rfl, ?_, ?_⟩
    · simp only [Json.later, hx, Json.entries, ← List.map_drop, List.mem_map]
      exact ⟨a, ha, rfl⟩
    · have := (wfElems_iff.1 (wf_arr.1 hu).2) a (List.mem_of_mem_drop ha)
      rw [wfElems_cons]
      exact ⟨this.1, this.2.1, this.2.2, rfl⟩
  | obj g ms =>
    right
    simp only [ents, ← List.map_drop, List.mem_map] at hy
    obtain ⟨a, ha, rfl⟩ := hy
    refine ⟨a, rfl, ?_, ?_⟩
    · simp only [Json.later, hx, Json.entries, ← List.map_drop, List.mem_map]
      exact ⟨a, ha, rfl⟩
    · have := (wfMembers_iff.1 (wf_obj.1 hu).2) a (List.mem_of_mem_drop ha)
      rw [wfMembers_cons]
      exact ⟨this.1, this.2.1, this.2.2.1, this.2.2.2.1, this.2.2.2.2.1, this.2.2.2.2.2, rfl⟩

/-- The text of an entry in place, and what follows it. -/
theorem child_after {u : Json} {x : Text} {i : Nat} {json : Bytes} {n : Nat} (hu : u.wf) (hs : Seg json i u.render)
    (hx : u.slot? x = some n) : ∃ xs e ys f, ents u = xs ++ e :: ys ∧ xs.length = n ∧ childAt u x = some f ∧ f.val.wf ∧
      Seg json (i + f.pos) (f.val.render ++ (e.r ++ (tailEnt ys ++ [clsOf u]))) := by
  obtain ⟨xs, e, ys, f, h1, h2, h3, -, h5, -⟩ := child_ent hx
  obtain ⟨c1, c2, -, -⟩ := child_seg hu hs h3
  have hcon : u.isContainer := by
    cases u <;> simp [Json.slot?] at hx <;> rfl
  refine ⟨xs, e, ys, f, h1, h2, h3, c2, seg_append.2 ⟨c1, ?_⟩⟩
  rw [render_container hcon, seg_cons, inner, if_neg (by simp [h1]), h1, renderEnt_split] at hs
  simp only [List.append_assoc] at hs
  rw [seg_append, seg_append, seg_append] at hs
  rw [Nat.add_assoc, h5]
  have := hs.2.2.2.2
  rwa [show i + 1 + (sepEnt xs).length + e.l.length + e.x.length = i + (1 + (sepEnt xs).length + e.l.length + e.x.length) by omega] at this

theorem noBracket_append {a b : Text} : noBracket (a ++ b) = (noBracket a && noBracket b) := by simp [noBracket]

theorem noBracket_ws {w : Text} (h : Ws w) : noBracket w := by
  simp only [noBracket, List.all_eq_true, Bool.and_eq_true, bne_iff_ne, ne_eq]
  simp only [Ws, List.all_eq_true] at h
  intro c hc
  have := isWs_ne (h c hc)
  exact ⟨⟨⟨this.2.2.2.2.1, this.2.2.2.2.2.1⟩, this.2.2.2.2.2.2.1⟩, this.2.2.2.2.2.2.2⟩

theorem noBracket_scalar {v : Json} (hw : v.wf) (hc : v.isContainer = false) (ha : v.allStr noBracket) : noBracket v.render := by
  cases v with
  | lit t =>
    rw [render_lit]
    simp only [Json.wf, Bool.and_eq_true, List.all_eq_true] at hw
    simp only [noBracket, List.all_eq_true, Bool.and_eq_true, bne_iff_ne, ne_eq]
    intro c hc
    have := tokByte_ne (hw.2 c hc)
    exact ⟨⟨⟨this.2.2.2.2.2.1, this.2.2.2.2.2.2.1⟩, this.2.2.2.2.2.2.2.1⟩, this.2.2.2.2.2.2.2.2⟩
  | str raw =>
    rw [render_str]
    rw [Json.allStr] at ha
    have e : 34 :: (raw ++ [34]) = [34] ++ (raw ++ [34]) := rfl
    rw [e, noBracket_append, noBracket_append, ha]; rfl
  | arr _ _ => simp [Json.isContainer] at hc
  | obj _ _ => simp [Json.isContainer] at hc

theorem noBracket_tail (ys : List Ent) (h : ∀ y ∈ ys, Ws y.l ∧ Ws y.r ∧ noBracket y.x) : noBracket (tailEnt ys) := by
  induction ys with
  | nil => rfl
  | cons y ys ih =>
    have e : tailEnt (y :: ys) = [44] ++ (y.l ++ (y.x ++ (y.r ++ tailEnt ys))) := rfl
    obtain ⟨h1, h2, h3⟩ := h y (by simp)
    rw [e, noBracket_append, noBracket_append, noBracket_append, noBracket_append, noBracket_ws h1, noBracket_ws h2, h3,
      ih fun z hz => h z (by simp [hz])]
    rfl

theorem memberIdx_none {ms : List (Member Json)} {q : Text} (h : memberIdx ms q = none) : ∀ m ∈ ms, m.key ≠ q := by
  unfold memberIdx at h
  rw [List.findIdx?_eq_none_iff] at h
  intro m hm
  simpa using h m hm

/-- `core` at an object without the key. -/
theorem core_miss {d : Doc} {p : List Text} {q : Text} {qs : List Text} {g : Text} {ms : List (Member Json)} (hd : d.wf)
    (h : d.get? p = some (.obj g ms)) (hq : memberIdx ms q = none) (hok : d.root.missOk p) (js : Bool) :
    core d.render js (p ++ q :: qs) = .err (.keyNotFound q) := by
  obtain ⟨f, hf, hv, hseg, hwf⟩ := find_any hd h
  obtain ⟨res, hat, hc⟩ := core_at (q := q) (qs := qs) hd hf (by rw [hv]; rfl)
  rw [hc]
  have hne := memberIdx_none hq
  cases hat with
  | arr hv' => rw [hv] at hv'; cases hv'
  | @obj g' ms' fuel t hv' hr hl hk hq' hfd hc' hks hfuel _ =>
    obtain ⟨rfl, rfl⟩ := Json.obj.inj (hv.symm.trans hv')
    subst hr
    have hl' : t.level = t.k + 1 := by omega
    have hne' : ∀ m ∈ ms, m.key ≠ t.cur := by rw [hc']; exact hne
    rcases List.eq_nil_or_concat p with rfl | ⟨p', x, rfl⟩
    · simp only [findAt, Option.some.injEq] at hf
      subst hf
      simp only at hv
      have hroot : d.root = .obj g ms := hv
      have : ∃ t', forUp d.render.length (keyBody d.render ([] ++ q :: qs)) (d.lead.length + 0 + 1) t = .done t' ∧ t'.found = false ∧ t'.cur = t.cur := by
        refine root_miss (trail := d.trail) hwf ?_ (doc_wf.1 hd).2.2 ?_ hl' hq' hfd hne' ?_
        · have : Seg d.render 0 (d.lead ++ (d.root.render ++ d.trail)) := seg_self _
          rw [seg_append] at this
          rw [← hroot]
          simpa using this.2
        · rw [← hroot]; simp [Doc.render]; omega
        · intro m hm
          simp only [Json.missOk, List.getLast?_nil, hroot, Json.entries, List.getLast?_map, hm, Option.map_some, Bool.or_eq_true,
            Bool.not_eq_true', Entry.val] at hok
          exact hok
      obtain ⟨t', h1, h2, h3⟩ := this
      simp only [contKey, h1, h2]
      rw [h3, hc']; rfl
    · rw [List.concat_eq_append] at *
      have hg := h
      simp only [Doc.get?] at h
      simp only [Json.missOk, List.getLast?_concat, List.dropLast_concat, h] at hok
      cases hu : d.root.get? p' with
      | none => simp [hu] at hok
      | some u =>
        simp only [hu, List.all_eq_true] at hok
        obtain ⟨fu, hfu, hvu, hsu, hwu⟩ := find_any hd (p := p') hu
        rw [findAt_snoc, hfu, Option.bind_some, Option.map_eq_some_iff] at hf
        obtain ⟨fc, hfc, rfl⟩ := hf
        rw [hvu] at hfc
        have hcx : ∃ n, u.slot? x = some n := by
          have : u.child? x = some fc.val := by
            have := (childAt_eq u x); rw [hfc] at this; exact this.symm
          obtain ⟨n, hn, -⟩ := child_some this
          exact ⟨n, hn⟩
        obtain ⟨n, hn⟩ := hcx
        obtain ⟨xs, e, ys, f', he, hxs, hch, -, hss⟩ := child_after hwu hsu hn
        obtain rfl : f' = fc := by rw [hfc] at hch; exact (Option.some.inj hch).symm
        simp only [Found.shift] at hv hseg ⊢
        rw [hv] at hss
        rw [Nat.add_assoc] at hss
        have hcls := (opn_cls (v := u)).2.2
        have hent := (ents_wf hwu).2
        have hres : forUp d.render.length (keyBody d.render (p' ++ [x] ++ q :: qs)) (d.lead.length + (fu.pos + f'.pos) + 1) t =
            .ret (.err (.keyNotFound t.cur)) := by
          by_cases hms : ms = []
          · subst hms
            simp only [Json.size, List.length_nil, if_true] at hok
            rw [← List.append_assoc e.r] at hss
            refine nested_miss_empty hwf hss hcls hl' hq' ?_
            rw [noBracket_append, noBracket_ws (hent e (by simp [he])).2.1, Bool.true_and]
            refine noBracket_tail ys fun y hy => ⟨(hent y (by simp [he, hy])).1, (hent y (by simp [he, hy])).2.1, ?_⟩
            rcases later_ent hwu hn he hxs hy with ⟨a, rfl, ha, hwa⟩ | ⟨m, rfl, ha, hwa⟩
            · have := hok _ ha
              simp only [Entry.plain, Entry.val, Bool.and_eq_true, Bool.not_eq_true'] at this
              rw [wfElems_cons] at hwa
              exact noBracket_scalar hwa.2.1 this.1.1 this.1.2
            · have := hok _ ha
              simp only [Entry.plain, Entry.val, Entry.key, Bool.and_eq_true, Bool.not_eq_true', Option.getD_some] at this
              rw [wfMembers_cons] at hwa
              have e1 : memText m = [34] ++ (m.key ++ ([34] ++ (m.m ++ ([58] ++ (m.l2 ++ m.v.render))))) := by simp [memText]
              simp only [memEnt]
              rw [e1, noBracket_append, noBracket_append, noBracket_append, noBracket_append, noBracket_append, noBracket_append,
                noBracket_ws hwa.2.2.1, noBracket_ws hwa.2.2.2.1, noBracket_scalar hwa.2.2.2.2.1 this.1.1 this.1.2,
                show noBracket m.key = true from this.2]
              rfl
          · have hsz : (Json.obj g ms).size ≠ 0 := by simpa [Json.size] using hms
            simp only [if_neg hsz] at hok
            refine nested_miss hwf hms hss (hent e (by simp [he])).2.1 hcls hl' hq' hfd hne' ?_
            intro j hj
            refine jump_tail ys (fun y hy => ⟨(hent y (by simp [he, hy])).1, (hent y (by simp [he, hy])).2.1, ?_⟩) hj
            intro i hi hp
            rcases later_ent hwu hn he hxs hy with ⟨a, rfl, ha, hwa⟩ | ⟨m, rfl, ha, hwa⟩
            · have := hok _ ha
              simp only [Entry.narrow, Entry.val, Bool.or_eq_true, Bool.not_eq_true'] at this
              rw [wfElems_cons] at hwa
              exact jump_narrow hwa.2.1 hi hp (this.imp id of_decide_eq_true)
            · have := hok _ ha
              simp only [Entry.narrow, Entry.val, Bool.or_eq_true, Bool.not_eq_true'] at this
              exact jump_narrow_member hwa hi hp (this.imp id of_decide_eq_true)
        simp only [contKey, hres]
        rw [hc']; rfl

end Jin
