import Verif.Proof.MissKey
import Verif.Proof.NoPanic
import Verif.Proof.Shape
/-!
# Proof.Fresh — a key that does not occur in the rest of the text

Whatever the text, the key search cannot report a key whose quoted form does not occur
behind the point it has reached.
-/

namespace Jin
open Spec
variable {json : Bytes} {path : List Bytes}

theorem strOk_quote {key x : Text} (h : strOk key) : strOk (key ++ 34 :: x) = false := by
  revert h
  refine strOk_ind (P := fun key => strOk (key ++ 34 :: x) = false) ?_ ?_ ?_ key
  · rw [List.nil_append, strOk_cons (by decide)]; rfl
  · intro b r _ ih
    rw [List.cons_append, List.cons_append, strOk_esc]; exact ih
  · intro c r h1 _ _ ih
    rw [List.cons_append, strOk_cons h1, ih, Bool.and_false]

/-- All the jump loop returns is that the key is not there. -/
theorem jump_ret {k i : Nat} {cur : Bytes} {s : JumpSt} :
    After (fun _ : JumpSt => True) (· = .err (.keyNotFound cur)) (forUp json.length (jumpBody json k cur) i s) := by
  refine forUp_inv (P := fun _ _ => True) ?_ (fun _ _ _ _ => trivial) trivial
  intro i s hi _
  obtain ⟨c, hc⟩ := getElem_some hi
  unfold jumpBody
  simp only [hc]
  repeat' split
  all_goals first | trivial | rfl

/-- The marks of the last key seen: both old, or set behind `pos`. -/
structure Marks (json : Bytes) (pos st sp : Nat) (q : Bytes) (i : Nat) (t : KeySt) : Prop where
  le : pos ≤ i
  cur : t.cur = q
  found : t.found = false
  start : t.start = st ∨ pos < t.start ∧ json[t.start - 1]? = some 34
  stop : t.stop = sp ∨ pos ≤ t.stop ∧ json[t.stop]? = some 34

theorem infix_of_seg {x : Bytes} {pos i : Nat} (h : Seg json i x) (hi : pos ≤ i) : x <:+: json.drop pos := by
  have : json.drop i <:+ json.drop pos := by
    rw [show i = pos + (i - pos) by omega, ← List.drop_drop]; exact List.drop_suffix _ _
  exact h.isInfix.trans this.isInfix

theorem Marks.same {pos st sp i : Nat} {q : Bytes} {t : KeySt} (h : Marks json pos st sp q i t)
    (hold : sameKey json q st sp = false) (hmix : ∀ b, pos ≤ b → json[b]? = some 34 → sameKey json q st b = false)
    (hsp : sp ≤ pos) (hnew : ¬ 34 :: (q ++ [34]) <:+: json.drop pos) : sameKey json t.cur t.start t.stop = false := by
  rw [h.cur]
  rcases h.start with e1 | ⟨a1, a2⟩
  · rcases h.stop with e2 | ⟨b1, b2⟩
    · rw [e1, e2]; exact hold
    · rw [e1]; exact hmix _ b1 b2
  · rw [Bool.eq_false_iff]
    intro hs
    rw [sameKey_iff] at hs
    rcases h.stop with e2 | ⟨b1, b2⟩
    · omega
    · refine hnew (infix_of_seg (i := t.start - 1) ?_ (by omega))
      rw [seg_cons, seg_append, seg_cons]
      refine ⟨a2, ?_, ?_, Seg.nil _ _⟩
      · rw [Nat.sub_add_cancel (by omega)]
        unfold Seg
        rw [← hs.2]; exact List.take_prefix _ _
      · rw [show t.start - 1 + 1 + q.length = t.stop by omega]; exact b2

/-- The key search from `pos` on does not find `q`. -/
theorem key_fresh {pos st sp i : Nat} {q : Bytes} {t : KeySt} (h : Marks json pos st sp q i t)
    (hold : sameKey json q st sp = false) (hmix : ∀ b, pos ≤ b → json[b]? = some 34 → sameKey json q st b = false)
    (hsp : sp ≤ pos) (hnew : ¬ 34 :: (q ++ [34]) <:+: json.drop pos) :
    After (fun t : KeySt => t.found = false ∧ t.cur = q) (· = .err (.keyNotFound q)) (forUp json.length (keyBody json path) i t) := by
  refine forUp_inv (P := Marks json pos st sp q) ?_ (fun _ _ _ h => ⟨h.found, h.cur⟩) h
  intro i t hi ht
  obtain ⟨c, hc⟩ := getElem_some hi
  have hs := ht.same hold hmix hsp hnew
  have hfd := ht.found
  have hle := ht.le
  have keep : Marks json pos st sp q (i + 1) t := { ht with le := by omega }
  unfold keyBody
  simp only [hc, hs, hfd, Bool.false_eq_true, if_false]
  split
  · exact keep
  · split
    · rename_i hc34
      have hc34 : c = 34 := by simpa using hc34
      subst hc34
      split
      · exact keep
      · have h1 : Marks json pos st sp q (i + 1) { t with found := false, inQuote := true, start := i + 1 } :=
          { le := by omega, cur := ht.cur, found := rfl, start := .inr ⟨by simp only; omega, by simpa using hc⟩, stop := ht.stop }
        have h2 : Marks json pos st sp q (i + 1) { t with found := false, inQuote := false, stop := i } :=
          { le := by omega, cur := ht.cur, found := rfl, start := ht.start, stop := .inr ⟨by simp only; omega, hc⟩ }
        have h3 : Marks json pos st sp q (i + 1) { t with found := false, start := i + 1 } := { h1 with }
        have h4 : Marks json pos st sp q (i + 1) { t with found := false, stop := i } := { h2 with }
        split
        · exact keep
        · split
          · exact h1
          · exact h2
        · split
          · exact h3
          · exact h4
    · split
      · exact keep
      · split
        · have hj := jump_ret (json := json) (k := t.k) (i := i) (cur := t.cur) (s := ⟨t.level, t.inQuote, none⟩)
          split
          · rename_i hr
            rw [hr, ht.cur] at hj
            exact hj
          · exact { ht with le := by omega, found := rfl }
        · split
          · exact { keep with found := rfl }
          · split
            · exact { keep with found := rfl }
            · split
              · split
                · exact congrArg (fun x => Out.err (.keyNotFound x)) ht.cur
                · exact { keep with found := rfl }
              · exact keep

/-- The text around a value is fixed by what it is for every value. -/
theorem around_len {a b a' b' : Text} (h : ∀ v : Json, a ++ (v.render ++ b) = a' ++ (v.render ++ b')) (hl : a.length ≤ a'.length) :
    a = a' ∧ b = b' := by
  have h0 := h (.lit [])
  simp only [Json.render, List.nil_append] at h0
  obtain ⟨c, rfl⟩ : ∃ c, a' = a ++ c := by
    have : a <+: a' := by
      refine List.prefix_of_prefix_length_le (l₃ := a ++ b) (List.prefix_append _ _) ?_ hl
      rw [h0]; exact List.prefix_append _ _
    exact this.imp fun _ h => h.symm
  rw [List.append_assoc, List.append_cancel_left_eq] at h0
  subst h0
  cases c with
  | nil => simp
  | cons x c =>
    have hx : ∀ y : UInt8, y = x := by
      intro y
      have := h (.lit [y])
      rw [List.append_assoc, List.append_cancel_left_eq] at this
      simpa using (List.cons.inj this).1
    have e1 := hx 0
    have e2 := hx 1
    rw [← e1] at e2
    exact absurd e2 (by decide)

theorem around {a b a' b' : Text} (h : ∀ v : Json, a ++ (v.render ++ b) = a' ++ (v.render ++ b')) : a = a' ∧ b = b' := by
  rcases Nat.le_total a.length a'.length with hl | hl
  · exact around_len h hl
  · have := around_len (fun v => (h v).symm) hl
    exact ⟨this.1.symm, this.2.symm⟩

theorem sameKey_pre {q : Bytes} {b : Nat} (h : sameKey json q 0 b = true) : q <+: json := by
  rw [sameKey_iff, List.drop_zero] at h
  rw [← h.2]; exact List.take_prefix _ _

theorem sameKey_over {q key : Bytes} {a b : Nat} (hq : strOk q) (hk : strOk key) (hs : Seg json a (key ++ [34]))
    (hb : a + key.length < b) : sameKey json q a b = false := by
  rw [Bool.eq_false_iff]
  intro h
  rw [sameKey_iff] at h
  have : key ++ [34] <+: q := by
    refine List.prefix_of_prefix_length_le hs ?_ (by simp; omega)
    conv => lhs; rw [← h.2]
    exact List.take_prefix _ _
  obtain ⟨x, rfl⟩ := this
  rw [List.append_assoc, List.singleton_append, strOk_quote hk] at hq
  cases hq

theorem members_strOk : ∀ {ms : List (Member Json)}, wfMembers ms → ∀ m ∈ ms, strOk m.key
  | m :: ms, h, x, hx => by
    rw [wfMembers_cons] at h
    rcases List.mem_cons.1 hx with rfl | hx
    · exact h.2.1
    · exact members_strOk h.2.2.2.2.2.2 x hx

/-- `core` at an object without the key, where the key does not occur behind the object. -/
theorem core_fresh_open {d : Doc} {p : List Text} {q : Text} {qs : List Text} {g : Text} {ms : List (Member Json)} (hd : d.opens)
    (h : d.get? p = some (.obj g ms)) (hq : memberIdx ms q = none) (hfr : d.fresh p q) (js : Bool) :
    core d.render js (p ++ q :: qs) = .err (.keyNotFound q) := by
  obtain ⟨f, hf, hv, hseg, hwf⟩ := find_any_open hd h
  obtain ⟨res, hat, hc⟩ := core_at_open (q := q) (qs := qs) hd hf (by rw [hv]; rfl)
  obtain ⟨hsq, hpre, w, a, b, hw, hab, hlast, hnew⟩ := hfr
  obtain rfl : Json.obj g ms = w := Option.some.inj (h.symm.trans hw)
  obtain ⟨A, B, l1, e1, e2⟩ := find_upd p hf
  obtain ⟨rfl, rfl⟩ : d.lead ++ A = a ∧ B ++ d.trail = b := by
    refine around fun v => ?_
    rw [← hab v]
    simp [Doc.set, Json.set, Doc.render, e2]
  have hne := memberIdx_none hq
  have hdrop : d.render.drop (d.lead.length + f.pos) = (Json.obj g ms).render ++ (B ++ d.trail) := by
    have : d.render = (d.lead ++ A) ++ ((Json.obj g ms).render ++ (B ++ d.trail)) := by simp [Doc.render, e1, hv]
    rw [this, ← l1, ← List.length_append, List.drop_left]
  rw [hc]
  cases hat with
  | arr hv' => rw [hv] at hv'; cases hv'
  | @obj g' ms' fuel t hv' hr hl hk hq' hfd hc' hks hfuel hst =>
    obtain ⟨rfl, rfl⟩ := Json.obj.inj (hv.symm.trans hv')
    subst hr
    have hq0 : q ≠ [] := by rintro rfl; exact hpre List.nil_prefix
    have key : After (fun t : KeySt => t.found = false ∧ t.cur = q) (· = .err (.keyNotFound q))
        (forUp d.render.length (keyBody d.render (p ++ q :: qs)) (d.lead.length + f.pos + 1) t) := by
      by_cases hms : ms = []
      · subst hms
        refine key_fresh (pos := d.lead.length + f.pos) (st := t.start) (sp := t.stop)
          ⟨by omega, hc', hfd, .inl rfl, .inl rfl⟩ ?_ ?_ ?_ (by rw [hdrop]; exact hnew)
        · rcases hst with ⟨s1, s2⟩ | ⟨key, k0, kp, ko, ks, ke, ki⟩
          · rw [Bool.eq_false_iff]
            intro hs; rw [s1] at hs
            exact hpre (sameKey_pre hs)
          · rw [seg_append] at ks
            rw [sameKey_eq ks.1 ke, decide_eq_false_iff_not]
            rintro rfl
            refine hlast (by simp [Json.size]) ?_
            rw [List.getElem?_append_left (by omega)] at kp
            rw [List.getLast?_eq_getElem?, kp]
        · intro b hb _
          rcases hst with ⟨s1, s2⟩ | ⟨key, k0, kp, ko, ks, ke, ki⟩
          · rw [Bool.eq_false_iff]
            intro hs; rw [s1] at hs
            exact hpre (sameKey_pre hs)
          · exact sameKey_over hsq ko ks (by omega)
        · rcases hst with ⟨s1, s2⟩ | ⟨key, k0, kp, ko, ks, ke, ki⟩ <;> omega
      · have hs := seg_obj hms hseg
        obtain ⟨m, ci, st, sp, g1, g2, g3, g4, w4, w5, w6, g5, g6, g7, g8, g9⟩ := key_last (path := p ++ q :: qs) ms hms (by omega) hq' hfd
          (wf_obj.1 hwf).2 hs.2 (prevOk_succ hs.1 (by decide)) (by rw [hc']; exact hne)
        rw [g2]
        rw [hc'] at g4
        have hkey : strOk m.key := members_strOk (wf_obj.1 hwf).2 m (List.mem_of_getLast? g1)
        refine key_fresh (pos := ci) (st := st) (sp := sp) ⟨Nat.le_refl _, hc', hfd, .inl rfl, .inl rfl⟩ g4 ?_ (by omega) ?_
        · intro b hb _
          exact sameKey_over hsq hkey g7 (by omega)
        · have hdc : d.render.drop ci = (Json.obj g ms).tailText ++ (B ++ d.trail) := by
            have hsg : Seg d.render ci (Json.obj g ms).tailText := by
              simp only [Json.tailText, g1]
              exact seg_cons.2 ⟨g3, g5⟩
            have hlen : ci + (Json.obj g ms).tailText.length = d.lead.length + f.pos + (Json.obj g ms).render.length := by
              rw [render_obj, if_neg (by simpa using hms)]
              simp only [Json.tailText, g1, List.length_cons, List.length_append, List.length_nil]
              omega
            obtain ⟨x, hx⟩ := hsg
            rw [← hx]
            congr 1
            have e3 : x = d.render.drop (ci + (Json.obj g ms).tailText.length) := by
              rw [← List.drop_drop, ← hx, List.drop_left]
            rw [e3, hlen, ← List.drop_drop, hdrop, List.drop_left]
          rw [hdc]; exact hnew
    simp only [contKey]
    cases hres : forUp d.render.length (keyBody d.render (p ++ q :: qs)) (d.lead.length + f.pos + 1) t with
    | ret r => rw [hres] at key; subst key; rfl
    | done t' =>
      rw [hres] at key
      simp only [key.1, key.2]; rfl

theorem core_fresh {d : Doc} {p : List Text} {q : Text} {qs : List Text} {g : Text} {ms : List (Member Json)} (hd : d.wf)
    (h : d.get? p = some (.obj g ms)) (hq : memberIdx ms q = none) (hfr : d.fresh p q) (js : Bool) :
    core d.render js (p ++ q :: qs) = .err (.keyNotFound q) := core_fresh_open (opens_of_wf hd) h hq hfr js

/-- Freshness, with the text behind the value found by its position. -/
theorem fresh_of {d : Doc} {p : List Text} {q : Text} {w : Json} {n : Nat} (hq : strOk q) (hpre : ¬ q <+: d.render)
    (hf : (findAt d.root p).map (fun f => (f.pos, f.val)) = some (n, w)) (hl : w.size = 0 → p.getLast? ≠ some q)
    (hn : ¬ 34 :: (q ++ [34]) <:+: w.tailText ++ d.render.drop (d.lead.length + n + w.render.length)) : d.fresh p q := by
  obtain ⟨f, hf', he⟩ := Option.map_eq_some_iff.1 hf
  clear hf
  cases he
  obtain ⟨A, B, l1, e1, e2⟩ := find_upd p hf'
  have hg : d.get? p = some f.val := by
    have := findAt_eq p d.root
    rw [hf'] at this; exact this.symm
  refine ⟨hq, hpre, f.val, d.lead ++ A, B ++ d.trail, hg, fun v => ?_, hl, ?_⟩
  · simp [Doc.set, Json.set, Doc.render, e2]
  · have : d.render = (d.lead ++ A ++ f.val.render) ++ (B ++ d.trail) := by simp [Doc.render, e1]
    rw [this, List.drop_left' (by simp [l1]; omega)] at hn
    exact hn

theorem tailText_suffix (v : Json) : v.tailText <:+ v.render := by
  cases v with
  | lit _ => exact List.suffix_refl _
  | str _ => exact List.suffix_refl _
  | arr _ _ => exact List.suffix_refl _
  | obj g ms =>
    cases hm : ms.getLast? with
    | none => simp only [Json.tailText, hm]; exact List.suffix_refl _
    | some m =>
      simp only [Json.tailText, hm]
      obtain ⟨ms, rfl⟩ := List.getLast?_eq_some_iff.1 hm
      have : ∀ ms : List (Member Json), ∃ x, renderMembers (ms ++ [m]) = x ++ 58 :: (m.l2 ++ (m.v.render ++ m.r)) := by
        intro ms
        induction ms with
        | nil => exact ⟨m.l ++ 34 :: (m.key ++ 34 :: m.m), by simp [renderMembers_cons]⟩
        | cons a ms ih =>
          obtain ⟨x, hx⟩ := ih
          rw [List.cons_append, renderMembers_cons, if_neg (by simp), hx]
          exact ⟨a.l ++ (34 :: (a.key ++ 34 :: (a.m ++ 58 :: (a.l2 ++ (a.v.render ++ (a.r ++ 44 :: x)))))), by simp⟩
      obtain ⟨x, hx⟩ := this ms
      rw [render_obj, if_neg (by simp), hx]
      exact ⟨123 :: x, by simp⟩

/-- A key that occurs nowhere in the text is fresh. -/
theorem fresh_of_text {d : Doc} {p : List Text} {q : Text} {w : Json} (hq : strOk q) (hpre : ¬ q <+: d.render) (h : d.get? p = some w)
    (hl : p.getLast? ≠ some q) (hn : ¬ 34 :: (q ++ [34]) <:+: d.render) : d.fresh p q := by
  obtain ⟨f, hf, rfl⟩ := findAt_of_get h
  obtain ⟨A, B, l1, e1, e2⟩ := find_upd p hf
  refine ⟨hq, hpre, f.val, d.lead ++ A, B ++ d.trail, h, fun v => ?_, fun _ => hl, fun hc => hn (hc.trans ?_)⟩
  · simp [Doc.set, Json.set, Doc.render, e2]
  · have : d.render = (d.lead ++ A) ++ (f.val.render ++ (B ++ d.trail)) := by simp [Doc.render, e1]
    rw [this]
    obtain ⟨x, hx⟩ := tailText_suffix f.val
    rw [← hx]
    exact ⟨d.lead ++ A ++ x, [], by simp⟩

/-- `core` at an object without the key. -/
theorem core_clear {d : Doc} {p : List Text} {q : Text} {qs : List Text} {g : Text} {ms : List (Member Json)} (hd : d.wf)
    (h : d.get? p = some (.obj g ms)) (hq : memberIdx ms q = none) (hok : d.clear p q) (js : Bool) :
    core d.render js (p ++ q :: qs) = .err (.keyNotFound q) :=
  hok.elim (core_miss hd h hq · js) (core_fresh hd h hq · js)

end Jin
