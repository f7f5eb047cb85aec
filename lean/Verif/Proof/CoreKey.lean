import Verif.Proof.CoreArr
/-!
# Proof.CoreKey — the key search of `core`
-/

namespace Jin
open Spec

section
variable {json : Bytes} {path : List Bytes}

theorem key_ws {w : Bytes} : ∀ {i : Nat} {t : KeySt}, Ws w → Seg json i w →
    Run json (keyBody json path) i t (i + w.length) t := by
  induction w with
  | nil => intro i a _ _; exact Run.refl
  | cons b w ih =>
    intro i a hw hs
    rw [seg_cons] at hs
    rw [ws_cons, Bool.and_eq_true] at hw
    have h1 : Run json (keyBody json path) i a (i + 1) a :=
      Run.next hs.1 (by simp [keyBody, hs.1, isJSONChar_tok (Or.inr hw.1)])
    exact (h1.trans (ih hw.2 hs.2)).to (by simp; omega)

/-- A key at the level being searched is recorded in `start`/`stop`. -/
theorem key_str {i : Nat} {raw : Bytes} {t : KeySt} (hl : t.level = t.k + 1) (hq : t.inQuote = false)
    (hf : t.found = false) (hseg : Seg json i (34 :: (raw ++ [34]))) (hok : strOk raw) (hp : PrevOk json i) :
    Run json (keyBody json path) i t (i + (raw.length + 2)) { t with start := i + 1, stop := i + (raw.length + 1) } := by
  have := str_of_scan_at (json := json) (body := keyBody json path) (F := fun s => s = t)
    (G := fun s => s = { t with inQuote := true, start := i + 1 })
    (F' := fun s => s = { t with start := i + 1, stop := i + (raw.length + 1) })
    (i := i) (s := t) (raw := raw) ?_ ?_ ?_ ?_ hseg hok hp rfl
  · obtain ⟨s', hr, rfl⟩ := this; exact hr
  · rintro hc hp -
    exact ⟨_, by simp [keyBody, hc, isJSONChar, hp.scan, hq, hf, hl], rfl⟩
  · rintro i s c hc hne rfl
    refine ⟨_, ?_, rfl⟩
    by_cases h : isJSONChar false true c <;> simp [keyBody, hc, h, hne]
  · rintro i s hc h1 h2 rfl
    exact ⟨_, by simp [keyBody, hc, isJSONChar, quoteScan_escaped h1 h2, hl, hf], rfl⟩
  · rintro j s rfl hc h1 h2 rfl
    refine ⟨{ t with start := i + 1, stop := i + (raw.length + 1) }, ?_, rfl⟩
    simp [keyBody, hc, isJSONChar, quoteScan_real h1 h2, hl, hf, hq]

/-- At the colon after the key that is looked for, end of the path. -/
theorem keyBody_hit_last {i : Nat} {t : KeySt} (hc : json[i]? = some 58) (hl : t.level = t.k + 1)
    (hq : t.inQuote = false) (hs : sameKey json t.cur t.start t.stop = true) (hk : t.k + 1 = path.length) :
    keyBody json path i t = .brk { t with offset := i + 1, found := true, keyStart := t.start } := by
  simp [keyBody, hc, isJSONChar, hl, hq, hs, hk]

/-- At the colon after the key that is looked for, more path to go. -/
theorem keyBody_hit_more {i : Nat} {t : KeySt} (hc : json[i]? = some 58) (hl : t.level = t.k + 1)
    (hq : t.inQuote = false) (hs : sameKey json t.cur t.start t.stop = true) (hk : t.k + 1 ≠ path.length) :
    keyBody json path i t = .next { t with offset := i + 1, found := true } := by
  simp [keyBody, hc, isJSONChar, hl, hq, hs, hk]

theorem sameKey_eq {cur key : Bytes} {i j : Nat} (hs : Seg json i key) (hj : j = i + key.length) :
    sameKey json cur i j = decide (key = cur) := by
  subst hj
  unfold sameKey
  by_cases h : key = cur
  · subst h; simp [hs.drop_take]; omega
  · have : ¬ (cur.length = key.length ∧ (json.drop i).take cur.length = cur) := by
      rintro ⟨h1, h2⟩; rw [h1, hs.drop_take] at h2; exact h h2
    simp only [h, decide_false, Bool.and_eq_false_iff]
    by_cases h1 : cur.length = key.length
    · right
      simp only [beq_eq_false_iff_ne, ne_eq]
      intro h2; exact this ⟨h1, h2⟩
    · left
      simp only [beq_eq_false_iff_ne, ne_eq]; omega

/-- The value of the key that was found is an array. -/
theorem keyBody_arr {i : Nat} {t : KeySt} {p : Bytes} (hc : json[i]? = some 91)
    (hq : t.inQuote = false) (hf : t.found = true) (hp : path[t.k + 1]? = some p) :
    keyBody json path i t = .brk { t with offset := i, brace := 91, cur := p } := by
  simp [keyBody, hc, isJSONChar, hq, hf, hp]

/-- The value of the key that was found is an object. -/
theorem keyBody_obj {i : Nat} {t : KeySt} {p : Bytes} (hc : json[i]? = some 123)
    (hq : t.inQuote = false) (hf : t.found = true) (hp : path[t.k + 1]? = some p) :
    keyBody json path i t =
      .next { t with k := t.k + 1, cur := p, found := false, level := t.level + 1 } := by
  simp [keyBody, hc, isJSONChar, hq, hf, hp]

/-- The segments of a member. -/
theorem member_parts {m : Member Json} {ms : List (Member Json)} {i : Nat} {rest : Bytes}
    (hw : wfMembers (m :: ms)) (hs : Seg json i (renderMembers (m :: ms) ++ rest)) :
    Ws m.l ∧ Seg json i m.l ∧
    strOk m.key ∧ Seg json (i + m.l.length) (34 :: (m.key ++ [34])) ∧
    Ws m.m ∧ Seg json (i + m.l.length + (m.key.length + 2)) m.m ∧
    json[i + m.l.length + (m.key.length + 2) + m.m.length]? = some 58 ∧
    Ws m.l2 ∧ Seg json (i + m.l.length + (m.key.length + 2) + m.m.length + 1) m.l2 ∧
    m.v.wf ∧ Seg json (i + m.l.length + (m.key.length + 2) + m.m.length + 1 + m.l2.length) m.v.render ∧
    Ws m.r ∧ Seg json (i + m.l.length + (m.key.length + 2) + m.m.length + 1 + m.l2.length + m.v.render.length) m.r ∧
    wfMembers ms ∧ Seg json (i + memberLen m) ((if ms.isEmpty then [] else 44 :: renderMembers ms) ++ rest) := by
  have hr : renderMembers (m :: ms) =
      m.l ++ ((34 :: (m.key ++ [34])) ++ (m.m ++ ([58] ++ (m.l2 ++ (m.v.render ++ (m.r ++
        (if ms.isEmpty then [] else 44 :: renderMembers ms))))))) := by
    rw [renderMembers_cons]; simp
  rw [hr] at hs
  simp only [List.append_assoc] at hs
  rw [seg_append, seg_append, seg_append, seg_append, seg_append, seg_append, seg_append] at hs
  obtain ⟨h1, h2, h3, h4, h5, h6, h7, h8⟩ := hs
  have hk : (34 :: (m.key ++ [34])).length = m.key.length + 2 := by simp
  rw [hk] at h3 h4 h5 h6 h7 h8
  rw [seg_cons] at h4
  rw [wfMembers_cons] at hw
  obtain ⟨w1, w2, w3, w4, w5, w6, w7⟩ := hw
  refine ⟨w1, h1, w2, h2, w3, h3, h4.1, w4, h5, w5, h6, w6, h7, w7, ?_⟩
  have e : i + memberLen m = i + m.l.length + (m.key.length + 2) + m.m.length + [58].length + m.l2.length +
      m.v.render.length + m.r.length := by unfold memberLen; simp; omega
  rw [e]; exact h8

/-- From the start of a member to its colon. -/
theorem key_to_colon {m : Member Json} {ms : List (Member Json)} {i : Nat} {rest : Bytes} {t : KeySt}
    (hl : t.level = t.k + 1) (hq : t.inQuote = false) (hf : t.found = false)
    (hw : wfMembers (m :: ms)) (hs : Seg json i (renderMembers (m :: ms) ++ rest)) (hp : PrevOk json i) :
    Run json (keyBody json path) i t (i + m.l.length + (m.key.length + 2) + m.m.length)
      { t with start := i + m.l.length + 1, stop := i + m.l.length + (m.key.length + 1) } ∧
    ∀ cur, sameKey json cur (i + m.l.length + 1) (i + m.l.length + (m.key.length + 1)) = decide (m.key = cur) := by
  obtain ⟨w1, h1, w2, h2, w3, h3, _⟩ := member_parts hw hs
  refine ⟨?_, ?_⟩
  · have r1 := key_ws (path := path) (t := t) w1 h1
    have r2 := key_str (path := path) hl hq hf h2 w2 (prevOk_ws h1 w1 hp)
    have r3 := key_ws (path := path) (t := { t with start := i + m.l.length + 1, stop := i + m.l.length + (m.key.length + 1) }) w3 h3
    exact (r1.trans r2).trans r3
  · intro cur
    rw [seg_cons, seg_append] at h2
    exact sameKey_eq h2.2.1 (by omega)

/-- After a member with another key that is not the last one, the search goes on
at the next member. -/
theorem key_mismatch {m : Member Json} {ms : List (Member Json)} {i : Nat} {rest : Bytes} {t : KeySt}
    (hl : t.level = t.k + 1) (hq : t.inQuote = false) (hf : t.found = false)
    (hw : wfMembers (m :: ms)) (hs : Seg json i (renderMembers (m :: ms) ++ rest)) (hp : PrevOk json i)
    (hm : m.key ≠ t.cur) (hms : ms ≠ []) :
    Run json (keyBody json path) i t (i + memberLen m + 1)
      { t with start := i + m.l.length + 1, stop := i + m.l.length + (m.key.length + 1) } ∧
    Seg json (i + memberLen m + 1) (renderMembers ms ++ rest) ∧ PrevOk json (i + memberLen m + 1) := by
  obtain ⟨r1, hsame⟩ := key_to_colon (path := path) hl hq hf hw hs hp
  obtain ⟨_, _, _, _, _, _, h4, w4, h5, w5, h6, w6, h7, w7, h8⟩ := member_parts hw hs
  rw [if_neg (by simpa using hms), List.cons_append, seg_cons] at h8
  refine ⟨r1.trans ?_, h8.2, prevOk_succ h8.1 (by decide)⟩
  have hjump : forUp json.length (jumpBody json t.k t.cur) (i + m.l.length + (m.key.length + 2) + m.m.length)
      ⟨t.level, t.inQuote, none⟩ = .done ⟨t.k + 1, false, some (i + memberLen m)⟩ := by
    rw [hl, hq, forUp_next (s' := ⟨t.k + 1, false, none⟩) (lt_of_getElem? h4) (by simp [jumpBody, h4, isJSONChar])]
    obtain ⟨s, hr, rfl⟩ := elem_run (jump_skips (json := json) (k := t.k) (cur := t.cur)) (d := 0) w4 w5 w6 h5 h6 h7
      (prevOk_succ h4 (by decide)) rfl
    rw [hr, show i + m.l.length + (m.key.length + 2) + m.m.length + 1 + m.l2.length + m.v.render.length + m.r.length =
      i + memberLen m by unfold memberLen; omega]
    exact forUp_brk (lt_of_getElem? h8.1) (by simp [jumpBody, h8.1, isJSONChar])
  refine forUp_goto (lt_of_getElem? h4) ?_ (by unfold memberLen; omega)
  simp [keyBody, h4, isJSONChar, hl, hq, hsame, hm]
  rw [hl, hq] at hjump
  rw [hjump]
  simp

/-- What the path loop of `core` is left with after a step. -/
inductive Outcome (json : Bytes) (path : List Bytes) (pos : Nat) (w : Json) (ks : Int) : CoreSt → Prop where
  /-- The path is used up; the value is at `pos`. -/
  | last {s : CoreSt} (hk : s.k + 1 = path.length) (hs : skipSpaces json s.offset = some pos)
      (h0 : 0 < s.offset) (hks : s.keyStart = ks) : Outcome json path pos w ks s
  /-- The next container is at `s.offset`. -/
  | more {s : CoreSt} {v : Json} {p : Bytes} {ps : List Bytes} {f : Found}
      (hd : path.drop (s.k + 1) = p :: ps) (hcur : s.cur = p) (hc : v.isContainer) (hv : v.wf)
      (hb : s.brace = v.first) (hseg : Seg json s.offset v.render) (hf : findAt v (p :: ps) = some f)
      (hw : f.val = w) (hpos : s.offset + f.pos = pos)
      (hks : (match f.key with | some x => ((s.offset + x : Nat) : Int) | none => -1) = ks)
      (hk1 : s.keyStart = -1) : Outcome json path pos w ks s

theorem container_of_find {v : Json} {p : Bytes} {ps : List Bytes} {f : Found}
    (h : findAt v (p :: ps) = some f) : v.isContainer := by
  cases v with
  | lit t => simp [findAt, childAt] at h
  | str t => simp [findAt, childAt] at h
  | arr _ _ => rfl
  | obj _ _ => rfl

/-- State of the key loop, as the state of the path loop. -/
def KeySt.toCore (t : KeySt) : CoreSt := ⟨t.k, t.offset, t.brace, t.cur, t.keyStart⟩

theorem key_loop (ps : List Bytes) : ∀ {ms : List (Member Json)} {g : Text} {i : Nat} {t : KeySt} {f : Found},
    (Json.obj g ms).wf → Seg json i (renderMembers ms ++ [125]) → PrevOk json i → 0 < i →
    t.level = t.k + 1 → t.inQuote = false → t.found = false → t.keyStart = -1 →
    path.drop t.k = t.cur :: ps → findAt (.obj g ms) (t.cur :: ps) = some f →
    ∃ t', forUp json.length (keyBody json path) i t = .done t' ∧ t'.found = true ∧ t.k ≤ t'.k ∧
      Outcome json path (i - 1 + f.pos) f.val
        (match f.key with | some x => ((i - 1 + x : Nat) : Int) | none => -1) t'.toCore := by
  induction ps with
  | nil =>
    intro ms g i t f hw hs hp hi hl hq hf hks hd hfind
    have hlen : t.k + 1 = path.length := by
      have := congrArg List.length hd; simp at this; omega
    simp only [findAt, childAt, List.isEmpty_nil, if_true] at hfind
    replace hfind : (memberAt ms t.cur).map (fun x => (⟨1 + x.2.1, x.2.2, some (1 + x.1)⟩ : Found)) = some f := by
      cases hx : memberAt ms t.cur <;> simp_all
    simp only [Option.map_eq_some_iff, Prod.exists] at hfind
    obtain ⟨kp, o, v, hm, rfl⟩ := hfind
    rw [wf_obj] at hw
    replace hw := hw.2
    simp only
    rw [show i - 1 + (1 + o) = i + o by omega, show i - 1 + (1 + kp) = i + kp by omega]
    induction ms generalizing i t kp o with
    | nil => simp [memberAt] at hm
    | cons m ms ihm =>
      rw [memberAt] at hm
      by_cases hkey : m.key = t.cur
      · simp only [hkey, if_true, Option.some.injEq, Prod.mk.injEq] at hm
        obtain ⟨rfl, rfl, rfl⟩ := hm
        obtain ⟨r1, hsame⟩ := key_to_colon (path := path) hl hq hf hw hs hp
        obtain ⟨_, _, _, _, _, _, h4, w4, h5, w5, h6, _⟩ := member_parts hw hs
        rw [r1]
        refine ⟨_, forUp_brk (lt_of_getElem? h4) (keyBody_hit_last h4 hl hq ((hsame t.cur).trans (decide_eq_true hkey)) hlen), rfl, Nat.le_refl _, ?_⟩
        refine .last (by simpa [KeySt.toCore] using hlen) ?_ (by simp [KeySt.toCore]) ?_
        · simp only [KeySt.toCore]
          rw [skipSpaces_value h5 w4 w5 h6, hkey]; congr 1; omega
        · simp [KeySt.toCore]; omega
      · simp only [hkey, if_false, Option.map_eq_some_iff, Prod.exists, Prod.mk.injEq] at hm
        obtain ⟨kp', o', v', hm, rfl, rfl, rfl⟩ := hm
        obtain ⟨r1, h1, h2⟩ := key_mismatch (path := path) hl hq hf hw hs hp hkey (memberAt_ne hm)
        rw [r1]
        have := ihm (i := i + memberLen m + 1) (t := { t with start := i + m.l.length + 1, stop := i + m.l.length + (m.key.length + 1) })
          (kp := kp') (o := o') h1 h2 (by omega) hl hq hf hks hd hlen hm ((wfMembers_cons m ms).1 hw).2.2.2.2.2.2
        rw [show i + (memberLen m + 1 + o') = i + memberLen m + 1 + o' by omega,
          show i + (memberLen m + 1 + kp') = i + memberLen m + 1 + kp' by omega]
        exact this
  | cons p ps ih =>
    intro ms g i t f hw hs hp hi hl hq hf hks hd hfind
    have hlen : t.k + 1 < path.length := by
      have := congrArg List.length hd; simp at this; omega
    have hnext : path[t.k + 1]? = some p := by
      have : (path.drop t.k)[1]? = some p := by rw [hd]; rfl
      rwa [List.getElem?_drop] at this
    have hdrop : path.drop (t.k + 1) = p :: ps := by
      rw [← List.drop_drop, hd]; rfl
    rw [findAt, childAt] at hfind
    cases hm : memberAt ms t.cur with
    | none => simp [hm] at hfind
    | some x =>
      obtain ⟨kp, o, v⟩ := x
      simp only [hm, Option.map_some, List.isEmpty_cons, Bool.false_eq_true, if_false, Option.map_eq_some_iff] at hfind
      obtain ⟨f', hfind, rfl⟩ := hfind
      rw [wf_obj] at hw
      replace hw := hw.2
      simp only [Found.shift]
      rw [show i - 1 + (1 + o + f'.pos) = i + o + f'.pos by omega]
      have hkeq : (match f'.key.map (1 + o + ·) with | some x => ((i - 1 + x : Nat) : Int) | none => -1) =
          (match f'.key with | some x => ((i + o + x : Nat) : Int) | none => -1) := by
        cases f'.key with
        | none => rfl
        | some x => simp only [Option.map_some]; congr 1; omega
      rw [hkeq]
      clear hkeq
      induction ms generalizing i t kp o with
      | nil => simp [memberAt] at hm
      | cons m ms ihm =>
        rw [memberAt] at hm
        by_cases hkey : m.key = t.cur
        · simp only [hkey, if_true, Option.some.injEq, Prod.mk.injEq] at hm
          obtain ⟨rfl, rfl, rfl⟩ := hm
          obtain ⟨r1, hsame⟩ := key_to_colon (path := path) hl hq hf hw hs hp
          obtain ⟨_, _, _, _, _, _, h4, w4, h5, w5, h6, _⟩ := member_parts hw hs
          have hcon := container_of_find hfind
          rw [r1, forUp_next (lt_of_getElem? h4) (keyBody_hit_more
            (t := { t with start := i + m.l.length + 1, stop := i + m.l.length + (m.key.length + 1) }) h4 hl hq
            ((hsame t.cur).trans (decide_eq_true hkey)) (Nat.ne_of_lt hlen)), key_ws w4 h5]
          have hfst := h6.first w5
          have epos : i + (m.l.length + t.cur.length + m.m.length + m.l2.length + 3) =
              i + m.l.length + (m.key.length + 2) + m.m.length + 1 + m.l2.length := by rw [hkey]; omega
          rw [epos]
          cases hv : m.v with
          | lit _ => rw [hv] at hcon; simp [Json.isContainer] at hcon
          | str _ => rw [hv] at hcon; simp [Json.isContainer] at hcon
          | arr g' es' =>
            rw [hv, first_arr] at hfst
            refine ⟨_, forUp_brk (lt_of_getElem? hfst) (keyBody_arr hfst hq rfl hnext), rfl, Nat.le_refl _, ?_⟩
            refine .more (v := m.v) (p := p) (ps := ps) (f := f') ?_ ?_ hcon w5 ?_ ?_ hfind rfl rfl rfl ?_
            · exact hdrop
            · rfl
            · rw [hv, first_arr]; rfl
            · exact h6
            · exact hks
          | obj g' ms' =>
            rw [hv, first_obj] at hfst
            dsimp only
            rw [forUp_next (lt_of_getElem? hfst) (keyBody_obj
              (t := ⟨t.k, t.level, t.inQuote, true, i + m.l.length + 1, i + m.l.length + (m.key.length + 1),
                i + m.l.length + (m.key.length + 2) + m.m.length + 1, t.brace, t.cur, t.keyStart⟩) hfst hq rfl hnext)]
            rw [hv] at hfind h6 w5
            have hne : ms' ≠ [] := by
              rintro rfl
              simp [findAt, childAt, memberAt] at hfind
            obtain ⟨h7, h8⟩ := seg_obj hne h6
            have := ih (i := i + m.l.length + (m.key.length + 2) + m.m.length + 1 + m.l2.length + 1)
              (ms := ms') (g := g') (f := f')
              (t := ⟨t.k + 1, t.k + 1 + 1, false, false, i + m.l.length + 1, i + m.l.length + (m.key.length + 1),
                i + m.l.length + (m.key.length + 2) + m.m.length + 1, t.brace, p, t.keyStart⟩)
              w5 h8 (prevOk_succ h7 (by decide)) (by omega) rfl rfl rfl hks hdrop hfind
            simp only [Nat.add_sub_cancel] at this
            obtain ⟨t', a1, a2, a3, a4⟩ := this
            exact ⟨t', by simpa [hl, hq] using a1, a2, Nat.le_of_succ_le a3, a4⟩
        · simp only [hkey, if_false, Option.map_eq_some_iff, Prod.exists, Prod.mk.injEq] at hm
          obtain ⟨kp', o', v', hm, rfl, rfl, rfl⟩ := hm
          obtain ⟨r1, h1, h2⟩ := key_mismatch (path := path) hl hq hf hw hs hp hkey (memberAt_ne hm)
          rw [r1]
          have := ihm (i := i + memberLen m + 1) (t := { t with start := i + m.l.length + 1, stop := i + m.l.length + (m.key.length + 1) })
            (kp := kp') (o := o') h1 h2 (by omega) hl hq hf hks hd hlen hnext hdrop hm ((wfMembers_cons m ms).1 hw).2.2.2.2.2.2
          rw [show i + (memberLen m + 1 + o') = i + memberLen m + 1 + o' by omega]
          exact this

end

end Jin
