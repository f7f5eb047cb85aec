import Verif.Props.Utf8Make
import Verif.Props.Parser
import Verif.Model.ParserMore
/-!
# Props.Utf8Parser — C116 for `Parser`
-/

namespace Jin
open Spec

/-- Every label and value of a tree is UTF-8. -/
inductive Node.AllUtf8 : Node → Prop
  | mk {label value : Bytes} {down : List Node} (hl : Utf8 label) (hv : Utf8 value) (hd : ∀ d ∈ down, Node.AllUtf8 d) : Node.AllUtf8 (.mk label value down)

theorem Node.AllUtf8.label {n : Node} (h : n.AllUtf8) : Utf8 n.label := by cases h; assumption
theorem Node.AllUtf8.value {n : Node} (h : n.AllUtf8) : Utf8 n.value := by cases h; assumption
theorem Node.AllUtf8.down {n : Node} (h : n.AllUtf8) : ∀ d ∈ n.down, d.AllUtf8 := by cases h; assumption

theorem Node.AllUtf8.setLabel {n : Node} {l : Bytes} (h : n.AllUtf8) (hl : Utf8 l) : (n.setLabel l).AllUtf8 := by
  cases h with | mk _ hv hd => exact ⟨hl, hv, hd⟩
theorem Node.AllUtf8.setValue {n : Node} {v : Bytes} (h : n.AllUtf8) (hv : Utf8 v) : (n.setValue v).AllUtf8 := by
  cases h with | mk hl _ hd => exact ⟨hl, hv, hd⟩
theorem Node.AllUtf8.setDown {n : Node} {d : List Node} (h : n.AllUtf8) (hd : ∀ x ∈ d, x.AllUtf8) : (n.setDown d).AllUtf8 := by
  cases h with | mk hl hv _ => exact ⟨hl, hv, hd⟩

theorem Node.AllUtf8.addChild {n c : Node} (h : n.AllUtf8) (hc : c.AllUtf8) : (n.addChild c).AllUtf8 := by
  refine h.setDown ?_
  intro x hx
  rcases List.mem_append.1 hx with hx | hx
  · exact h.down x hx
  · rw [List.mem_singleton.1 hx]; exact hc

theorem Node.AllUtf8.leaf {l v : Bytes} (hl : Utf8 l) (hv : Utf8 v) : (Node.mk l v []).AllUtf8 := ⟨hl, hv, by simp⟩

/-! ### Parse -/

/-- What the loop of `pCore` keeps. -/
def PcUtf8 (json : Bytes) (s : PcSt) : Prop :=
  s.cur.AllUtf8 ∧ (∀ n ∈ s.ups, n.AllUtf8) ∧ (∀ b ∈ s.braces, Beside json b) ∧ Beside json s.start ∧ Beside json s.stop ∧ Utf8 s.key ∧ Beside json s.valStart

theorem slice_ascii {json v : Bytes} {a i : Nat} {c : UInt8} (hu : Utf8 json) (ha : Beside json a) (hi : json[i]? = some c) (hc : c < 128)
    (h : slice json a i = .ok v) : Utf8 v := hu.slice h (by simpa using ha) (by simpa using Beside.at hi hc)

theorem pcBody_utf8 {json : Bytes} (hu : Utf8 json) (i : Nat) (s : PcSt) (hi : i < json.length) (h : PcUtf8 json s) :
    Step i (fun _ => PcUtf8 json) (PcUtf8 json) (fun _ => True) (pcBody json i s) := by
  obtain ⟨d, hd⟩ := getElem_some hi
  obtain ⟨h1, h2, h3, h4, h5, h6, h7⟩ := h
  have hasc : isJSONChar true true d = true → d < 128 := by
    simp only [isJSONChar, Bool.or_eq_true, beq_iff_eq, Bool.true_and]
    rintro ((((((rfl | rfl) | rfl) | rfl) | rfl) | rfl) | rfl) <;> decide
  unfold pcBody
  simp only [hd]
  split
  · exact ⟨h1, h2, h3, h4, h5, h6, h7⟩
  rename_i hj
  have hd' : d < 128 := hasc (by simpa using hj)
  have hbe : Beside json i := .at hd hd'
  have haf : Beside json (i + 1) := .after hd hd'
  have hkey : ∀ {n : Nat}, Utf8 (if s.last == 58 then s.key else itoa n) := by
    intro n; split
    · exact h6
    · exact itoa_utf8 n
  have hval : ∀ {v}, slice json s.valStart i = .ok v → Utf8 v := fun h => slice_ascii hu h7 hd hd' h
  split
  · split
    · split
      · exact ⟨h1, h2, h3, h4, hbe, h6, h7⟩
      · exact ⟨h1, h2, h3, h4, h5, h6, h7⟩
      · exact ⟨h1, h2, h3, haf, h5, h6, h7⟩
    · exact ⟨h1, h2, h3, haf, h5, h6, h7⟩
  split
  · exact ⟨h1, h2, h3, h4, h5, h6, h7⟩
  split
  · split
    · exact trivial
    · refine ⟨.leaf hkey Utf8.nil, ?_, ?_, h4, h5, h6, haf⟩
      · intro n hn
        rcases List.mem_cons.1 hn with rfl | hn
        · exact h1
        · exact h2 n hn
      · intro b hb
        rcases List.mem_cons.1 hb with rfl | hb
        · exact hbe
        · exact h3 b hb
  split
  · split
    · exact trivial
    · rename_i n idxs _
      have hw : ∀ {r : Node × Nat}, ((if s.last == 58 then do
            let v ← slice json s.valStart i
            return (s.cur.addChild (.mk s.key v []), s.valStart)
          else if s.last == 44 then do
            let v ← slice json s.valStart i
            return (s.cur.addChild (.mk (itoa n) v []), i + 1)
          else return (s.cur, s.valStart)) : Out (Node × Nat)) = .ok r → r.1.AllUtf8 ∧ Beside json r.2 := by
        intro r h
        split at h
        · cases hs : slice json s.valStart i with
          | panic => rw [hs] at h; cases h
          | err _ => rw [hs] at h; cases h
          | ok v => rw [hs] at h; cases h; exact ⟨h1.addChild (.leaf h6 (hval hs)), h7⟩
        · split at h
          · cases hs : slice json s.valStart i with
            | panic => rw [hs] at h; cases h
            | err _ => rw [hs] at h; cases h
            | ok v => rw [hs] at h; cases h; exact ⟨h1.addChild (.leaf (itoa_utf8 n) (hval hs)), haf⟩
          · cases h; exact ⟨h1, h7⟩
      split
      · rename_i cur vs b braces up ups hc hb hup
        obtain ⟨c1, c2⟩ := hw hc
        split
        · rename_i v hv
          have hb' : Beside json b := h3 b (by rw [hb]; simp)
          have hv' : Utf8 v := by
            refine hu.slice hv (by simpa using hb') ?_
            rw [show ((i : Int) + 1).toNat = i + 1 by omega]; exact haf
          refine ⟨(h2 up (by rw [hup]; simp)).addChild (c1.setValue hv'), ?_, ?_, h4, h5, h6, c2⟩
          · intro n hn; exact h2 n (by rw [hup]; simp [hn])
          · intro x hx; exact h3 x (by rw [hb]; simp [hx])
        · exact trivial
      · exact trivial
  split
  · split
    · rename_i key hk
      exact ⟨h1, h2, h3, h4, h5, hu.slice hk (by simpa using h4) (by simpa using h5), haf⟩
    · exact trivial
  split
  · split
    · exact trivial
    · rename_i n idxs _
      have hw : ∀ {r : Node}, ((if s.last == 58 then do
            let v ← slice json s.valStart i
            return s.cur.addChild (.mk s.key v [])
          else if s.last == 44 || s.last == 91 then do
            let v ← slice json s.valStart i
            return s.cur.addChild (.mk (itoa n) v [])
          else return s.cur) : Out Node) = .ok r → r.AllUtf8 := by
        intro r h
        split at h
        · cases hs : slice json s.valStart i with
          | panic => rw [hs] at h; cases h
          | err _ => rw [hs] at h; cases h
          | ok v => rw [hs] at h; cases h; exact h1.addChild (.leaf h6 (hval hs))
        · split at h
          · cases hs : slice json s.valStart i with
            | panic => rw [hs] at h; cases h
            | err _ => rw [hs] at h; cases h
            | ok v => rw [hs] at h; cases h; exact h1.addChild (.leaf (itoa_utf8 n) (hval hs))
          · cases h; exact h1
      split
      · rename_i cur hc
        exact ⟨hw hc, h2, h3, h4, h5, h6, haf⟩
      · exact trivial
  · exact ⟨h1, h2, h3, h4, h5, h6, h7⟩

theorem foldUps_utf8 : ∀ {ups : List Node} {n : Node}, n.AllUtf8 → (∀ u ∈ ups, u.AllUtf8) → (foldUps n ups).AllUtf8
  | [], _, hn, _ => hn
  | u :: us, _, hn, hu => foldUps_utf8 (ups := us) ((hu u (List.mem_cons_self ..)).addChild hn) fun x hx => hu x (List.mem_cons_of_mem _ hx)

theorem skipSpaces_beside {json : Bytes} {i j : Nat} (hi : Beside json i) (h : skipSpaces json i = some j) : Beside json j := by
  fun_induction skipSpaces json i with
  | case1 => cases h
  | case2 i c hc hs ih => exact ih (.after hc (space_ascii hs)) h
  | case3 i c hc hs => cases h; exact hi

theorem pCore_utf8 {json : Bytes} {n r : Node} (hu : Utf8 json) (hn : n.AllUtf8) (h : pCore json n = .ok r) : r.AllUtf8 := by
  unfold pCore at h
  split at h
  · cases h; exact hn
  split at h
  · cases h
  rename_i st hst
  have := forUp_inv (hi := json.length) (P := fun _ => PcUtf8 json) (Q := PcUtf8 json) (R := fun _ : Unit => True) (pcBody_utf8 hu) (fun _ _ _ h => h)
    (i := st) (s := ⟨n, [], [], [0], false, st, 0, [], 0, 0⟩) ⟨hn, by simp, by simp, skipSpaces_beside .zero hst, .zero, Utf8.nil, .zero⟩
  split at h
  · cases h
  · rename_i s hs
    rw [hs] at this
    cases h
    exact foldUps_utf8 this.1 this.2.1

theorem empty_utf8 : (Node.mk [] [] []).AllUtf8 := .leaf Utf8.nil Utf8.nil

/-- A parser with UTF-8 in its text and all over its tree. -/
def Parser.AllUtf8 (p : Parser) : Prop := Utf8 p.json ∧ p.core.AllUtf8

/-- **C116** `Parse` of UTF-8. -/
theorem C116_parse {json : Bytes} {p : Parser} (hu : Utf8 json) (h : Parse json = .ok p) : p.AllUtf8 := by
  unfold Parse at h
  cases hc : pCore json (.mk [] [] []) with
  | panic => rw [hc] at h; cases h
  | err _ => rw [hc] at h; cases h
  | ok core =>
    rw [hc] at h
    simp only [Out.bind_ok] at h
    have := pCore_utf8 hu empty_utf8 hc
    split at h
    · cases h
    · rename_i c cs hd
      cases h
      exact ⟨hu, this.down c (by rw [hd]; simp)⟩

/-! ### Reading -/

theorem walk_utf8 : ∀ {path : List Bytes} {n r : Node}, n.AllUtf8 → n.walk path = .ok r → r.AllUtf8
  | [], n, r, hn, h => by unfold Node.walk at h; cases h; exact hn
  | p :: ps, n, r, hn, h => by
    unfold Node.walk at h
    split at h
    · rename_i d hd
      exact walk_utf8 (hn.down d (List.mem_of_find?_eq_some hd)) h
    · cases h

/-- **C116** `Parser.Get` and `Parser.GetStringArray`. -/
theorem C116_parserGet {p : Parser} (hp : p.AllUtf8) {path : List Bytes} : (∀ w, p.Get path = .ok w → Utf8 w) ∧
    ∀ l, p.GetStringArray path = .ok l → ∀ w ∈ l, Utf8 w := by
  have get : ∀ w, p.Get path = .ok w → Utf8 w := by
    intro w h
    unfold Parser.Get at h
    split at h
    · cases h; exact hp.1
    · cases hw : p.core.walk path with
      | panic => rw [hw] at h; cases h
      | err _ => rw [hw] at h; cases h
      | ok n => rw [hw] at h; exact cleanValue_utf8 (walk_utf8 hp.2 hw).value h
  refine ⟨get, fun l h => ?_⟩
  unfold Parser.GetStringArray at h
  cases hg : p.Get path with
  | panic => rw [hg] at h; cases h
  | err _ => rw [hg] at h; cases h
  | ok val =>
    rw [hg] at h
    simp only [Out.bind_ok] at h
    split at h
    · cases h
    · split at h
      · cases hp : ParseArray val with
        | panic => rw [hp] at h; cases h
        | err _ => rw [hp] at h; cases h
        | ok o =>
          rw [hp] at h
          cases o with
          | none => cases h
          | some l' => cases h; exact (C116_arrays (get _ hg)).1 _ hp
      · cases h

mutual
theorem createTree_utf8 {pad : Bytes → Bytes} (hp : ∀ t, Utf8 (pad t)) {wv : Bool} : ∀ {n : Node} {depth : Nat}, n.AllUtf8 → Utf8 (n.createTree pad depth wv)
  | .mk _ _ down, depth, h => by
    unfold Node.createTree
    exact createTrees_utf8 hp h.down
theorem createTrees_utf8 {pad : Bytes → Bytes} (hp : ∀ t, Utf8 (pad t)) {wv : Bool} : ∀ {ns : List Node} {depth : Nat}, (∀ n ∈ ns, n.AllUtf8) →
    Utf8 (createTrees pad depth wv ns)
  | [], _, _ => by unfold createTrees; exact Utf8.nil
  | .mk label value down :: ds, depth, h => by
    have hn : (Node.mk label value down).AllUtf8 := h _ (List.mem_cons_self ..)
    have h1 := createTree_utf8 hp (wv := wv) (depth := depth + 1) hn
    have h2 := createTrees_utf8 hp (wv := wv) (depth := depth) fun n hm => h n (List.mem_cons_of_mem (.mk label value down) hm)
    unfold createTrees
    refine Utf8.append ?_ (Utf8.append ?_ h2)
    · have tab : Utf8 (List.replicate (depth - 1) (9 : UInt8)) := .ascii fun c hc => by rw [(List.mem_replicate.1 hc).2]; decide
      have hook : Utf8 hookRune := ⟨['└'], by decide +kernel⟩
      have dash : Utf8 dashRune := ⟨['─'], by decide +kernel⟩
      have asc : ∀ {t : Bytes}, (∀ c ∈ t, c < 128) → Utf8 t := .ascii
      have head : Utf8 (if depth != 0 then 9 :: (List.replicate (depth - 1) 9 ++ hookRune ++ [32]) ++ [32] else List.replicate (depth - 1) 9 ++ dashRune ++ [32]) := by
        split
        · exact (Utf8.cons (by decide) ((tab.append hook).append (asc (by decide)))).append (asc (by decide))
        · exact (tab.append dash).append (asc (by decide))
      unfold treeLine
      simp only
      split
      · exact ((((head.append hn.label).append (hp _)).append (asc (by decide))).append hn.value).append (asc (by decide))
      · exact (head.append hn.label).append (asc (by decide))
    · split
      · exact h1
      · exact Utf8.nil
end

/-- **C116** `Parser.Tree` and `Parser.TreeFull`, whose padding is spaces. -/
theorem C116_tree {p : Parser} (hp : p.AllUtf8) {pad : Bytes → Bytes} (hs : ∀ t, ∀ c ∈ pad t, c = 32) : Utf8 p.Tree ∧ Utf8 (p.TreeFull pad) :=
  ⟨createTree_utf8 (fun _ => Utf8.nil) hp.2, createTree_utf8 (fun t => .ascii fun c hc => by rw [hs t c hc]; decide) hp.2⟩

/-! ### Writing -/

theorem replaceFirst_all {P : Node → Prop} {q : Node → Bool} {f : Node → Node} (hf : ∀ n, P n → P (f n)) : ∀ {l : List Node}, (∀ n ∈ l, P n) → ∀ n ∈ replaceFirst q f l, P n
  | [], h, n, hn => by cases hn
  | d :: ds, h, n, hn => by
    unfold replaceFirst at hn
    split at hn
    · rcases List.mem_cons.1 hn with rfl | hn
      · exact hf _ (h d (List.mem_cons_self ..))
      · exact h n (List.mem_cons_of_mem _ hn)
    · rcases List.mem_cons.1 hn with rfl | hn
      · exact h _ (List.mem_cons_self ..)
      · exact replaceFirst_all hf (fun n hn => h n (List.mem_cons_of_mem _ hn)) n hn

theorem updAt_utf8 {f : Node → Node} (hf : ∀ n, n.AllUtf8 → (f n).AllUtf8) : ∀ {path : List Bytes} {n : Node}, n.AllUtf8 → (n.updAt f path).AllUtf8
  | [], n, hn => by unfold Node.updAt; exact hf n hn
  | p :: ps, n, hn => by
    unfold Node.updAt
    exact hn.setDown (replaceFirst_all (fun d hd => updAt_utf8 hf hd) hn.down)

theorem refresh_utf8 {json : Bytes} (hu : Utf8 json) : ∀ {qs : List (List Bytes)} {n : Node} {r : Node × Option Err}, n.AllUtf8 → refresh json qs n = .ok r → r.1.AllUtf8
  | [], n, r, hn, h => by unfold refresh at h; cases h; exact hn
  | q :: qs, n, r, hn, h => by
    unfold refresh at h
    split at h
    · cases h
    · cases h; exact updAt_utf8 (fun n hn => hn.setValue Utf8.nil) hn
    · rename_i v hv
      exact refresh_utf8 hu (updAt_utf8 (fun n hn => hn.setValue (C116_get hu hv)) hn) h

theorem refreshQuiet_utf8 {json : Bytes} (hu : Utf8 json) : ∀ {qs : List (List Bytes)} {n r : Node}, n.AllUtf8 → refreshQuiet json qs n = .ok r → r.AllUtf8
  | [], n, r, hn, h => by unfold refreshQuiet at h; cases h; exact hn
  | q :: qs, n, r, hn, h => by
    unfold refreshQuiet at h
    split at h
    · cases h
    · exact refreshQuiet_utf8 hu (updAt_utf8 (fun n hn => hn.setValue Utf8.nil) hn) h
    · rename_i v hv
      exact refreshQuiet_utf8 hu (updAt_utf8 (fun n hn => hn.setValue (C116_get hu hv)) hn) h

theorem finish_utf8 {json : Bytes} {core : Node} {qs : List (List Bytes)} {p : Parser} {er : Option Err} (hu : Utf8 json) (hc : core.AllUtf8)
    (h : finish json core qs = .done p er) : p.AllUtf8 := by
  unfold finish at h
  split at h
  · rename_i c e hr
    cases h
    exact ⟨hu, refresh_utf8 hu hc hr⟩
  · cases h

theorem parsed_utf8 {v l : Bytes} {n : Node} (hv : Utf8 v) (hl : Utf8 l) (h : (pCore v (.mk [] [] [])).map (fun n => (n.setLabel l).setValue v) = .ok n) : n.AllUtf8 := by
  cases hc : pCore v (.mk [] [] []) with
  | panic => rw [hc] at h; cases h
  | err _ => rw [hc] at h; cases h
  | ok c => rw [hc] at h; cases h; exact ((pCore_utf8 hv empty_utf8 hc).setLabel hl).setValue hv

theorem json?_some {m : Mut} {j : Bytes} (h : m.json? = some j) : ∃ e, m = .done j e := by
  cases m with
  | done a e => cases h; exact ⟨e, rfl⟩
  | panic => cases h

/-- **C116** `Parser.Set`. -/
theorem C116_parserSet {p q : Parser} {v : Bytes} {path : List Bytes} {er : Option Err} (hp : p.AllUtf8) (hv : Utf8 v) (h : p.Set v path = .done q er) : q.AllUtf8 := by
  unfold Parser.Set at h
  split at h
  · cases h; exact hp
  split at h
  · cases h
  · cases h; exact hp
  rename_i curr hcurr
  have hc := walk_utf8 hp.2 hcurr
  simp only at h
  split at h
  · rename_i n json hn hj
    have hn' : n.AllUtf8 := by
      split at hn
      · exact parsed_utf8 hv hc.label hn
      · cases hn; exact hc.setValue hv
    obtain ⟨e, he⟩ := json?_some hj
    exact finish_utf8 (C116_set hp.1 hv he) (updAt_utf8 (fun _ _ => hn') hp.2) h
  · cases h

/-- **C116** `Parser.SetKey`. -/
theorem C116_parserSetKey {p q : Parser} {k : Bytes} {path : List Bytes} {er : Option Err} (hp : p.AllUtf8) (hk : Utf8 k) (h : p.SetKey k path = .done q er) : q.AllUtf8 := by
  unfold Parser.SetKey at h
  split at h
  · cases h; exact hp
  split at h
  · cases h; exact hp
  split at h
  · cases h
  · cases h; exact hp
  · split at h
    · cases h; exact hp
    · split at h
      · cases h
      · rename_i json hj
        obtain ⟨e, he⟩ := json?_some hj
        split at h
        · rename_i core hr
          cases h
          exact ⟨C116_setKey hp.1 hk he, refreshQuiet_utf8 (C116_setKey hp.1 hk he) (updAt_utf8 (fun n hn => hn.setLabel hk) hp.2) hr⟩
        · cases h
  · cases h

/-- **C116** `Parser.Delete`. -/
theorem C116_parserDelete {p q : Parser} {path : List Bytes} {er : Option Err} (hp : p.AllUtf8) (h : p.Delete path = .done q er) : q.AllUtf8 := by
  have hcut : ∀ l (n : Node), n.AllUtf8 → (n.deAttach l).AllUtf8 := fun l n hn => hn.setDown fun x hx => hn.down x (List.mem_filter.1 hx).1
  unfold Parser.Delete at h
  split at h
  · cases h; exact hp
  split at h
  · cases h
  · cases h; exact hp
  simp only at h
  split at h
  · cases h
  · rename_i json e he
    cases h
    exact ⟨C116_delete hp.1 he, updAt_utf8 (hcut _) hp.2⟩
  · rename_i json he
    exact finish_utf8 (C116_delete hp.1 he) (updAt_utf8 (hcut _) hp.2) h

theorem beforeLast_utf8 {json t out : Bytes} {o c : UInt8} {e : Err} (hu : Utf8 json) (ht : Utf8 t) (hc : c < 128) (he : enclosed json o c e = none)
    (h : beforeLast json t = .ok out) : Utf8 out := by
  unfold enclosed at he
  split at he
  · rename_i hl
    split at he
    · rename_i hb
      rw [Bool.and_eq_true, beq_iff_eq, beq_iff_eq, List.getLast?_eq_getElem?] at hb
      have hat : Beside json ((json.length : Int) - 1).toNat := by
        rw [show ((json.length : Int) - 1).toNat = json.length - 1 by omega]
        exact .at hb.2 hc
      exact hu.replace ht h hat hat
    · cases he
  · cases he

theorem get_nil {p : Parser} {path : List Bytes} {json : Bytes} (h : p.Get path = .ok json) (hl : (path.length == 0) = true) : json = p.json := by
  unfold Parser.Get at h
  rw [if_pos hl] at h
  cases h; rfl

/-- **C116** `Parser.AddKeyValue`. -/
theorem C116_parserAddKeyValue {p q : Parser} {k v : Bytes} {path : List Bytes} {er : Option Err} (hp : p.AllUtf8) (hk : Utf8 k) (hv : Utf8 v)
    (h : p.AddKeyValue k v path = .done q er) : q.AllUtf8 := by
  unfold Parser.AddKeyValue at h
  split at h
  · cases h; exact hp
  split at h
  · cases h
  · cases h; exact hp
  rename_i json hg
  simp only at h
  generalize hc : (if k.length ≥ 2 then (idx v 0).map fun c => c == 91 || c == 123 else (.ok false : Out Bool)) = container at h
  have node : ∀ n : Node, (match container with
        | .ok true => (pCore v (Node.mk [] [] [])).map fun n : Node => (n.setLabel k).setValue v
        | .ok false => .ok (Node.mk k v [])
        | _ => (.panic : Out Node)) = .ok n → n.AllUtf8 := by
    intro n hn
    split at hn
    · exact parsed_utf8 hv hk hn
    · cases hn; exact .leaf hk hv
    · cases hn
  split at h
  · rename_i h0
    split at h
    · cases h; exact hp
    · split at h
      · cases h; exact hp
      · rename_i hen
        split at h
        · rename_i c n hn
          split at h
          · rename_i json' hb
            cases h
            refine ⟨?_, hp.2.addChild (node n hn)⟩
            rw [get_nil hg h0] at hen
            refine beforeLast_utf8 hp.1 ?_ (by decide) hen hb
            split
            · exact member_utf8 hk hv
            · exact Utf8.cons (by decide) (member_utf8 hk hv)
          · cases h
        · cases h
  · split at h
    · split at h
      · cases h; exact hp
      · split at h
        · cases h; exact hp
        · split at h
          · rename_i n hn
            have hcore : (p.core.updAt (·.addChild n) path).AllUtf8 := updAt_utf8 (fun x hx => hx.addChild (node n hn)) hp.2
            have hout : ∀ {out e}, Jin.AddKeyValue p.json k (some v) path = .done out e → Utf8 out :=
              fun he => C116_addKeyValue hp.1 hk (fun x hx => by cases hx; exact hv) he
            split at h
            · cases h
            · rename_i json' e he
              cases h
              exact ⟨hout he, hcore⟩
            · rename_i json' he
              exact finish_utf8 (hout he) hcore h
          · cases h
    · cases h

/-- **C116** `Parser.Add`. -/
theorem C116_parserAdd {p q : Parser} {v : Bytes} {path : List Bytes} {er : Option Err} (hp : p.AllUtf8) (hv : Utf8 v) (h : p.Add v path = .done q er) : q.AllUtf8 := by
  unfold Parser.Add at h
  split at h
  · cases h; exact hp
  split at h
  · cases h
  · cases h; exact hp
  rename_i json hg
  split at h
  · cases h
  · cases h; exact hp
  rename_i curr hcurr
  split at h
  · cases h; exact hp
  rename_i hen
  simp only at h
  split at h
  · rename_i n hn
    have hn' : n.AllUtf8 := by
      split at hn
      · exact parsed_utf8 hv (itoa_utf8 _) hn
      · cases hn; exact .leaf (itoa_utf8 _) hv
    split at h
    · rename_i h0
      split at h
      · rename_i json' hb
        cases h
        refine ⟨?_, hp.2.addChild hn'⟩
        rw [get_nil hg h0] at hen
        refine beforeLast_utf8 hp.1 ?_ (by decide) hen hb
        split
        · exact hv
        · exact Utf8.cons (by decide) hv
      · cases h
    · have hcore : (p.core.updAt (·.addChild n) path).AllUtf8 := updAt_utf8 (fun x hx => hx.addChild hn') hp.2
      split at h
      · cases h
      · rename_i json' e he
        cases h
        exact ⟨C116_add hp.1 hv he, hcore⟩
      · rename_i json' he
        exact finish_utf8 (C116_add hp.1 hv he) hcore h
  · cases h

theorem relabel_utf8 {k : Nat} : ∀ {l : List Node} {i : Nat}, (∀ n ∈ l, n.AllUtf8) → ∀ n ∈ relabel k i l, n.AllUtf8
  | [], i, _, n, hn => by cases hn
  | d :: ds, i, h, n, hn => by
    unfold relabel at hn
    rcases List.mem_cons.1 hn with rfl | hn
    · split
      · exact (h d (List.mem_cons_self ..)).setLabel (itoa_utf8 _)
      · exact h d (List.mem_cons_self ..)
    · exact relabel_utf8 (fun n hn => h n (List.mem_cons_of_mem _ hn)) n hn

theorem insertInto_utf8 {n r : Node} {i : Int} (hn : n.AllUtf8) (h : n.insertInto i = .ok r) : r.AllUtf8 := by
  unfold Node.insertInto at h
  (repeat' split at h) <;> first | (cases h; done) | (cases h; exact hn.setDown (relabel_utf8 hn.down))

/-- **C116** `Parser.Insert`. -/
theorem C116_parserInsert {p q : Parser} {i : Int} {v : Bytes} {path : List Bytes} {er : Option Err} (hp : p.AllUtf8) (hv : Utf8 v)
    (h : p.Insert i v path = .done q er) : q.AllUtf8 := by
  unfold Parser.Insert at h
  split at h
  · cases h; exact hp
  split at h
  · cases h
  · cases h; exact hp
  split at h
  · cases h
  · cases h; exact hp
  rename_i curr hcurr
  have hc := walk_utf8 hp.2 hcurr
  split at h
  · cases h; exact hp
  simp only at h
  split at h
  · rename_i n hn
    have hn' : n.AllUtf8 := by
      split at hn
      · cases hx : pCore v (.mk [] [] []) with
        | panic => rw [hx] at hn; cases hn
        | err _ => rw [hx] at hn; cases hn
        | ok c => rw [hx] at hn; cases hn; exact (pCore_utf8 hv empty_utf8 hx).setLabel (itoa_utf8 _)
      · cases hn; exact .leaf (itoa_utf8 _) Utf8.nil
    split at h
    · cases h
    · cases h; exact hp
    · rename_i curr1 h1
      have hc1 := insertInto_utf8 hc h1
      have hnv := hn'.setValue hv
      split at h
      · split at h
        · split at h
          · cases h
          · rename_i json' e he; cases h; exact ⟨C116_insert hp.1 hv he, hc1⟩
          · rename_i json' he
            split at h
            · rename_i curr2 h2; cases h; exact ⟨C116_insert hp.1 hv he, (insertInto_utf8 hc1 h2).addChild hn'⟩
            · cases h
        · split at h
          · cases h
          · rename_i json' e he; cases h; exact ⟨C116_insert hp.1 hv he, hc1.addChild hnv⟩
          · rename_i json' he
            split at h
            · rename_i curr2 h2; cases h; exact ⟨C116_insert hp.1 hv he, (insertInto_utf8 hc1 h2).addChild hnv⟩
            · cases h
      · have hcore : (p.core.updAt (fun _ => curr1.addChild (n.setValue v)) path).AllUtf8 := updAt_utf8 (fun _ _ => hc1.addChild hnv) hp.2
        split at h
        · cases h
        · rename_i json' e he; cases h; exact ⟨C116_insert hp.1 hv he, hcore⟩
        · rename_i json' he; exact finish_utf8 (C116_insert hp.1 hv he) hcore h
  · cases h

/-- Any sequence of calls on a parser, all given UTF-8, failed ones included. -/
inductive Utf8Calls : Parser → Prop
  | parse {json : Bytes} {p : Parser} : Utf8 json → Parse json = .ok p → Utf8Calls p
  | set {p q : Parser} {v : Bytes} {path : List Bytes} {er : Option Err} : Utf8Calls p → Utf8 v → p.Set v path = .done q er → Utf8Calls q
  | setKey {p q : Parser} {k : Bytes} {path : List Bytes} {er : Option Err} : Utf8Calls p → Utf8 k → p.SetKey k path = .done q er → Utf8Calls q
  | delete {p q : Parser} {path : List Bytes} {er : Option Err} : Utf8Calls p → p.Delete path = .done q er → Utf8Calls q
  | addKeyValue {p q : Parser} {k v : Bytes} {path : List Bytes} {er : Option Err} : Utf8Calls p → Utf8 k → Utf8 v → p.AddKeyValue k v path = .done q er → Utf8Calls q
  | add {p q : Parser} {v : Bytes} {path : List Bytes} {er : Option Err} : Utf8Calls p → Utf8 v → p.Add v path = .done q er → Utf8Calls q
  | insert {p q : Parser} {i : Int} {v : Bytes} {path : List Bytes} {er : Option Err} : Utf8Calls p → Utf8 v → p.Insert i v path = .done q er → Utf8Calls q

/-- **C116** After any calls given UTF-8 the text of a parser, what `Get` and `GetStringArray` give, and both pictures of
its tree are UTF-8. -/
theorem C116_parser {p : Parser} (h : Utf8Calls p) : Utf8 p.JSON ∧ (∀ path w, p.Get path = .ok w → Utf8 w) ∧
    (∀ path l, p.GetStringArray path = .ok l → ∀ w ∈ l, Utf8 w) ∧ Utf8 p.Tree ∧ ∀ pad : Bytes → Bytes, (∀ t, ∀ c ∈ pad t, c = 32) → Utf8 (p.TreeFull pad) := by
  have hp : p.AllUtf8 := by
    induction h with
    | parse hu h => exact C116_parse hu h
    | set _ hv h ih => exact C116_parserSet ih hv h
    | setKey _ hk h ih => exact C116_parserSetKey ih hk h
    | delete _ h ih => exact C116_parserDelete ih h
    | addKeyValue _ hk hv h ih => exact C116_parserAddKeyValue ih hk hv h
    | add _ hv h ih => exact C116_parserAdd ih hv h
    | insert _ hv h ih => exact C116_parserInsert ih hv h
  exact ⟨hp.1, fun path => (C116_parserGet hp).1, fun path => (C116_parserGet hp).2, (C116_tree hp (pad := fun _ => []) (by simp)).1, fun pad hs => (C116_tree hp hs).2⟩

/-! ### GetNew

`dive` closes what it builds with the first byte of the node's value plus two, which is right for `[` and `{` only. -/

/-- Nodes with children have a value that begins with a bracket, or none. -/
inductive Node.Braced : Node → Prop
  | mk {label value : Bytes} {down : List Node} (hv : down ≠ [] → ∀ c, value.head? = some c → c = 91 ∨ c = 123) (hd : ∀ d ∈ down, Node.Braced d) :
      Node.Braced (.mk label value down)

mutual
theorem dive_utf8 : ∀ {n : Node} {w : Bytes}, n.AllUtf8 → n.Braced → n.down ≠ [] → n.dive = .ok w → Utf8 w
  | .mk label value down, w, hn, hb, hne, h => by
    cases hb with
    | mk hv hd =>
      unfold Node.dive at h
      cases hi : idx value 0 with
      | panic => rw [hi] at h; cases h
      | err _ => rw [hi] at h; cases h
      | ok c =>
        rw [hi] at h
        simp only [Out.bind_ok] at h
        have hc : c = 91 ∨ c = 123 := by
          have h0 := (idx_ok hi).2
          rw [show ((0 : Int).toNat) = 0 from rfl, ← List.head?_eq_getElem?] at h0
          exact hv hne c h0
        cases hl : diveList value c down with
        | panic => rw [hl] at h; cases h
        | err _ => rw [hl] at h; cases h
        | ok body =>
          rw [hl] at h
          cases h
          obtain ⟨h1, h2⟩ := diveList_utf8 hn.down hd hl
          have hcl : c < 128 ∧ c + 2 < 128 := by rcases hc with rfl | rfl <;> decide
          refine Utf8.append (dropLast_utf8 (Utf8.cons hcl.1 h1) (c := 44) ?_ (by decide)) (Utf8.one hcl.2)
          rw [List.getLast?_cons, h2 hne]; rfl
theorem diveList_utf8 : ∀ {ns : List Node} {value w : Bytes} {c : UInt8}, (∀ n ∈ ns, n.AllUtf8) → (∀ n ∈ ns, n.Braced) → diveList value c ns = .ok w →
    Utf8 w ∧ (ns ≠ [] → w.getLast? = some 44)
  | [], value, w, c, _, _, h => by unfold diveList at h; cases h; exact ⟨Utf8.nil, fun h => absurd rfl h⟩
  | .mk label v dn :: ds, value, w, c, ha, hb, h => by
    have ha0 : (Node.mk label v dn).AllUtf8 := ha _ (List.mem_cons_self ..)
    have hb0 : (Node.mk label v dn).Braced := hb _ (List.mem_cons_self ..)
    have tail : ∀ {val}, Utf8 val → (diveList value c ds >>= fun rest => (pure ((if c == 123 then memberText label val else if c == 91 then val else []) ++ [44] ++ rest) : Out Bytes)) = .ok w →
        Utf8 w ∧ (Node.mk label v dn :: ds ≠ [] → w.getLast? = some 44) := by
      intro val hu h
      cases hr : diveList value c ds with
      | panic => rw [hr] at h; cases h
      | err _ => rw [hr] at h; cases h
      | ok rest =>
        rw [hr] at h
        cases h
        obtain ⟨h1, h2⟩ := diveList_utf8 (fun n hn => ha n (List.mem_cons_of_mem _ hn)) (fun n hn => hb n (List.mem_cons_of_mem _ hn)) hr
        constructor
        · refine Utf8.append (Utf8.append ?_ (Utf8.one (by decide))) h1
          split
          · exact member_utf8 ha0.label hu
          · split
            · exact hu
            · exact Utf8.nil
        · intro _
          by_cases hd : ds = []
          · subst hd
            unfold diveList at hr
            cases hr
            simp
          · rw [List.getLast?_append, h2 hd]; rfl
    unfold diveList at h
    simp only at h
    split at h
    · exact tail ha0.value h
    · rename_i hne
      cases hx : Node.dive (.mk label v dn) with
      | panic => rw [hx] at h; cases h
      | err _ => rw [hx] at h; cases h
      | ok val =>
        rw [hx] at h
        exact tail (dive_utf8 ha0 hb0 (fun e => hne (by rw [show dn = [] from e]; rfl)) hx) h
end

theorem walk_braced : ∀ {path : List Bytes} {n r : Node}, n.Braced → n.walk path = .ok r → r.Braced
  | [], n, r, hn, h => by unfold Node.walk at h; cases h; exact hn
  | p :: ps, n, r, hn, h => by
    unfold Node.walk at h
    split at h
    · rename_i d hd
      have hm := List.mem_of_find?_eq_some hd
      cases hn with | mk _ hds => exact walk_braced (hds d hm) h
    · cases h

theorem Node.Braced.leaf {l v : Bytes} : (Node.mk l v []).Braced := ⟨fun h => absurd rfl h, by simp⟩

/-- An open node: no value yet, its children are as they should be. -/
def Node.Open (n : Node) : Prop := n.value = [] ∧ ∀ d ∈ n.down, d.Braced

theorem Node.Open.addChild {n c : Node} (h : n.Open) (hc : c.Braced) : (n.addChild c).Open := by
  obtain ⟨h1, h2⟩ := h
  cases n with
  | mk l v d =>
    refine ⟨h1, ?_⟩
    intro x hx
    rcases List.mem_append.1 hx with hx | hx
    · exact h2 x hx
    · rw [List.mem_singleton.1 hx]; exact hc

theorem Node.Open.braced {n : Node} (h : n.Open) : n.Braced := by
  obtain ⟨h1, h2⟩ := h
  cases n with
  | mk l v d => exact ⟨fun _ c hc => (by rw [show v = [] from h1] at hc; cases hc), h2⟩

theorem Node.Open.close {n : Node} {v : Bytes} (h : n.Open) (hv : ∀ c, v.head? = some c → c = 91 ∨ c = 123) : (n.setValue v).Braced := by
  cases n with
  | mk l v' d => exact ⟨fun _ => hv, h.2⟩

/-- What the loop of `pCore` keeps about brackets. -/
def PcBraced (json : Bytes) (s : PcSt) : Prop :=
  s.cur.Open ∧ (∀ n ∈ s.ups, n.Open) ∧ ∀ b ∈ s.braces, json[b]? = some 91 ∨ json[b]? = some 123

theorem pcBody_braced {json : Bytes} (i : Nat) (s : PcSt) (hi : i < json.length) (h : PcBraced json s) :
    Step i (fun _ => PcBraced json) (PcBraced json) (fun _ => True) (pcBody json i s) := by
  obtain ⟨d, hd⟩ := getElem_some hi
  obtain ⟨h1, h2, h3⟩ := h
  unfold pcBody
  simp only [hd]
  split
  · exact ⟨h1, h2, h3⟩
  split
  · (repeat' split) <;> exact ⟨h1, h2, h3⟩
  split
  · exact ⟨h1, h2, h3⟩
  split
  · rename_i hb
    split
    · exact trivial
    · refine ⟨⟨rfl, by simp [Node.down]⟩, ?_, ?_⟩
      · intro n hn
        rcases List.mem_cons.1 hn with rfl | hn
        · exact h1
        · exact h2 n hn
      · intro b hb'
        rcases List.mem_cons.1 hb' with rfl | hb'
        · rw [Bool.or_eq_true, beq_iff_eq, beq_iff_eq] at hb
          rw [hd]
          exact hb.imp (congrArg some) (congrArg some)
        · exact h3 b hb'
  split
  · split
    · exact trivial
    · rename_i n idxs _
      have hw : ∀ {r : Node × Nat}, ((if s.last == 58 then do
            let v ← slice json s.valStart i
            return (s.cur.addChild (.mk s.key v []), s.valStart)
          else if s.last == 44 then do
            let v ← slice json s.valStart i
            return (s.cur.addChild (.mk (itoa n) v []), i + 1)
          else return (s.cur, s.valStart)) : Out (Node × Nat)) = .ok r → r.1.Open := by
        intro r h
        split at h
        · cases hs : slice json s.valStart i with
          | panic => rw [hs] at h; cases h
          | err _ => rw [hs] at h; cases h
          | ok v => rw [hs] at h; cases h; exact h1.addChild .leaf
        · split at h
          · cases hs : slice json s.valStart i with
            | panic => rw [hs] at h; cases h
            | err _ => rw [hs] at h; cases h
            | ok v => rw [hs] at h; cases h; exact h1.addChild .leaf
          · cases h; exact h1
      split
      · rename_i cur vs b braces up ups hc hb hup
        split
        · rename_i v hv
          refine ⟨(h2 up (by rw [hup]; simp)).addChild ((hw hc).close ?_), ?_, ?_⟩
          · intro c hc
            obtain ⟨-, -, -, e⟩ := slice_u8 hv
            rw [e, List.head?_take] at hc
            split at hc
            · cases hc
            · rw [Int.toNat_natCast, List.head?_drop] at hc
              rcases h3 b (by rw [hb]; simp) with h | h
              · rw [h] at hc; cases hc; exact .inl rfl
              · rw [h] at hc; cases hc; exact .inr rfl
          · intro n hn; exact h2 n (by rw [hup]; simp [hn])
          · intro x hx; exact h3 x (by rw [hb]; simp [hx])
        · exact trivial
      · exact trivial
  split
  · split
    · exact ⟨h1, h2, h3⟩
    · exact trivial
  split
  · split
    · exact trivial
    · rename_i n idxs _
      have hw : ∀ {r : Node}, ((if s.last == 58 then do
            let v ← slice json s.valStart i
            return s.cur.addChild (.mk s.key v [])
          else if s.last == 44 || s.last == 91 then do
            let v ← slice json s.valStart i
            return s.cur.addChild (.mk (itoa n) v [])
          else return s.cur) : Out Node) = .ok r → r.Open := by
        intro r h
        split at h
        · cases hs : slice json s.valStart i with
          | panic => rw [hs] at h; cases h
          | err _ => rw [hs] at h; cases h
          | ok v => rw [hs] at h; cases h; exact h1.addChild .leaf
        · split at h
          · cases hs : slice json s.valStart i with
            | panic => rw [hs] at h; cases h
            | err _ => rw [hs] at h; cases h
            | ok v => rw [hs] at h; cases h; exact h1.addChild .leaf
          · cases h; exact h1
      split
      · rename_i cur hc
        exact ⟨hw hc, h2, h3⟩
      · exact trivial
  · exact ⟨h1, h2, h3⟩

theorem foldUps_open : ∀ {ups : List Node} {n : Node}, n.Open → (∀ u ∈ ups, u.Open) → (foldUps n ups).Open
  | [], _, hn, _ => hn
  | u :: us, _, hn, hu => foldUps_open (ups := us) ((hu u (List.mem_cons_self ..)).addChild hn.braced) fun x hx => hu x (List.mem_cons_of_mem _ hx)

theorem parse_braced {json : Bytes} {p : Parser} (h : Parse json = .ok p) : p.core.Braced := by
  have h0 : (Node.mk [] [] []).Open := ⟨rfl, by simp [Node.down]⟩
  unfold Parse at h
  cases hc : pCore json (.mk [] [] []) with
  | panic => rw [hc] at h; cases h
  | err _ => rw [hc] at h; cases h
  | ok core =>
    have ho : core.Open := by
      unfold pCore at hc
      split at hc
      · cases hc; exact h0
      split at hc
      · cases hc
      rename_i st hst
      have := forUp_inv (hi := json.length) (P := fun _ => PcBraced json) (Q := PcBraced json) (R := fun _ : Unit => True) pcBody_braced (fun _ _ _ h => h)
        (i := st) (s := ⟨.mk [] [] [], [], [], [0], false, st, 0, [], 0, 0⟩) ⟨h0, by simp, by simp⟩
      split at hc
      · cases hc
      · rename_i s hs
        rw [hs] at this
        cases hc
        exact foldUps_open this.1 this.2.1
    rw [hc] at h
    simp only [Out.bind_ok] at h
    split at h
    · cases h
    · rename_i c cs hd
      cases h
      exact ho.2 c (by rw [hd]; simp)

/-- **C117** `GetNew` of a parser that `Parse` has just made.  (After `Set` it fails, see below.) -/
theorem C117_getNew_partial {json w : Bytes} {p : Parser} {path : List Bytes} (hu : Utf8 json) (hp : Parse json = .ok p) (h : p.GetNew path = .ok w) : Utf8 w := by
  unfold Parser.GetNew at h
  split at h
  · cases h
  · cases h; exact Utf8.nil
  · rename_i curr hw
    have h1 := walk_utf8 (C116_parse hu hp).2 hw
    split at h
    · exact cleanValue_utf8 h1.value h
    · rename_i hne
      cases hd : curr.dive with
      | panic => rw [hd] at h; cases h
      | err _ => rw [hd] at h; cases h
      | ok t =>
        rw [hd] at h
        exact cleanValue_utf8 (dive_utf8 h1 (walk_braced (parse_braced hp) hw) (fun e => hne (by rw [e]; rfl)) hd) h

theorem not_utf8 : ¬ Utf8 [126, 44, 128] := by
  intro h
  obtain ⟨cs, h⟩ := Utf8.tail (by decide) (Utf8.tail (by decide) h)
  cases cs with
  | nil => cases h
  | cons c cs =>
    rw [List.flatMap_cons] at h
    have hl := congrArg List.length h
    rw [List.length_append] at hl
    unfold String.utf8EncodeChar at hl h
    simp only at hl h
    split at hl
    · rename_i hle
      rw [if_pos hle] at h
      have h0 : (128 : UInt8) = UInt8.ofNat c.val.toNat := (List.cons.inj h).1
      have := congrArg UInt8.toNat h0
      rw [UInt8.toNat_ofNat_of_lt' (by show _ < 256; omega)] at this
      have : 128 = c.val.toNat := this
      omega
    · split at hl
      · simp only [List.length_cons, List.length_nil] at hl; omega
      · split at hl <;> (simp only [List.length_cons, List.length_nil] at hl; omega)

/-- **C117** fails: after `Set` of a container to `~` the node keeps its children, and `GetNew` closes with the byte 128. -/
theorem C117_getNew_fails : ∃ p q : Parser, Parse (str "{\"a\":[1,2]}") = .ok p ∧ p.Set (str "~") [str "a"] = .done q none ∧ ∃ w, q.GetNew [str "a"] = .ok w ∧ ¬ Utf8 w := by
  obtain ⟨p, q, h1, h2, h3⟩ := session_some (json := str "{\"a\":[1,2]}") (f := fun p => p.Set (str "~") [str "a"]) (look := fun q => q.GetNew [str "a"])
    (a := .ok [126, 44, 128]) (e := none) (by decide +kernel)
  exact ⟨p, q, h1, h2, _, h3, not_utf8⟩

/-! Cases: a text with letters of two and three bytes, parsed and changed. -/

example : Utf8 (str "{\"é\":[\"日本\", 1]}") := ⟨"{\"é\":[\"日本\", 1]}".toList, by decide +kernel⟩

example : session (str "{\"é\":[\"日本\", 1]}") (fun p => p.Set (str "\"ö\"") [str "é", str "0"]) (fun q => (q.JSON, q.Get [str "é", str "0"])) =
      some ((str "{\"é\":[\"ö\", 1]}", .ok (str "ö")), none) ∧
    session (str "{\"é\":[\"日本\", 1]}") (fun p => p.Set (str "\"ö\"") [str "é", str "0"]) (fun q => (q.GetStringArray [str "é"])) = some (.ok [str "ö", str "1"], none) ∧
    session (str "{\"é\":[\"日本\", 1]}") (fun p => p.Set (str "\"ö\"") [str "é", str "0"]) (fun q => (q.GetNew [str "é"])) = some (.ok (str "[\"ö\", 1]"), none) := by decide +kernel

end Jin
