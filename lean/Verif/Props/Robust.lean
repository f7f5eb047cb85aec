import Verif.Proof.Robust
import Verif.Props.NoPanic
/-!
# Props.Robust — C90, C91: reading the elements and members of arbitrary bytes
-/

namespace Jin
open Spec

variable {json : Bytes} {path : List Bytes}

/-- The first byte that is not whitespace. -/
theorem skipSpaces_cases (json : Bytes) (i : Nat) : (skipSpaces json i = none ∧ ∀ m x, i ≤ m → json[m]? = some x → space x = true) ∨
    ∃ j c, skipSpaces json i = some j ∧ i ≤ j ∧ json[j]? = some c ∧ space c = false ∧ ∀ m x, i ≤ m → m < j → json[m]? = some x → space x = true := by
  fun_induction skipSpaces json i with
  | case1 i hn => exact .inl ⟨rfl, fun m x hm hx => by have := lt_of_getElem? hx; have := List.getElem?_eq_none_iff.1 hn; omega⟩
  | case2 i c hc hs ih =>
    have key : ∀ m x, m = i → json[m]? = some x → space x = true := fun m x hm hx => by
      subst hm; rw [hc] at hx; injection hx with hx; subst hx; exact hs
    rcases ih with ⟨h1, h2⟩ | ⟨j, d, h1, h2, h3, h4, h5⟩
    · refine .inl ⟨h1, fun m x hm hx => ?_⟩
      by_cases h : m = i
      · exact key m x h hx
      · exact h2 m x (by omega) hx
    · refine .inr ⟨j, d, h1, by omega, h3, h4, fun m x hm hj hx => ?_⟩
      by_cases h : m = i
      · exact key m x h hx
      · exact h5 m x (by omega) hj hx
  | case3 i c hc hs => exact .inr ⟨i, c, rfl, Nat.le_refl _, hc, by simpa using hs, fun m x h1 h2 => by omega⟩

/-- **C90** `IterateArray` never panics by itself, whatever the bytes: with no path on every text,
with a path on every text whose last byte is not whitespace, a colon, a comma or an opening square
bracket. -/
theorem C90_iterateArray {σ : Type} (json : Bytes) (cb : σ → Bytes → Cb σ) (path : List Bytes) (u : σ)
    (hcb : ∀ s v, cb s v ≠ .panic)
    (hj : path = [] ∨ ∀ c, json.getLast? = some c → c ∉ [32, 9, 10, 13, 58, 44, 91]) :
    IterateArray json cb path u ≠ .panic := by
  unfold IterateArray
  split
  · exact fun h => by cases h
  · rename_i hlen
    split
    · split <;> exact fun h => by cases h
    · have fin : ∀ (a : Nat) (c : UInt8), json[a]? = some c → (match json[a]? with
          | none => IterRes.panic
          | some c =>
            if (c != 91) = true then .done u (some .arrayExpected)
            else
              match forUp json.length (iaBody json cb) (a + 1) ⟨a + 1, false, 0, u⟩ with
              | .ret r => r
              | .done s => .done s.user (some (.badJSON s.start))) ≠ .panic := fun a c hc => by
        simp only [hc]
        split
        · exact fun h => by cases h
        · have := ia_safe (json := json) (i := a + 1) hcb (s := ⟨a + 1, false, 0, u⟩) ⟨Nat.le_refl _, Paired.none _⟩
          cases hf : forUp json.length (iaBody json cb) (a + 1) ⟨a + 1, false, 0, u⟩ with
          | ret r => rw [hf] at this; exact this
          | done s => exact fun h => by cases h
      by_cases hp : path = []
      · subst hp
        simp only [List.length_nil, beq_self_eq_true, if_true]
        rcases skipSpaces_cases json 0 with ⟨h1, -⟩ | ⟨j, c, h1, -, h3, -⟩
        · rw [h1]; exact fun h => by cases h
        · rw [h1]; exact fin j c h3
      · have hl : (path.length == 0) = false := by simpa using hp
        simp only [hl, Bool.false_eq_true, if_false]
        rcases core_true (json := json) (settled_iff.2 (hj.resolve_left hp)) hp with ⟨e, he⟩ | ⟨l, c, hl, hc⟩
        · rw [he]; exact fun h => by cases h
        · rw [hl]; exact fin l.start c hc

example : IterateArray (str "[,:\"}{]") (fun (n : List Bytes) v => .ret (n ++ [v]) true none) [] [] = .done [str ""] (some (.badJSON 2)) := by
  decide +kernel

/-! ### Objects -/

/-- Where the readers of an object start. -/
theorem valueStart_root (json : Bytes) :
    (valueStart json [] = .panic ∧ Ws json = true) ∨
      ∃ (w t : Bytes) (c : UInt8), json = w ++ c :: t ∧ Ws w = true ∧ space c = false ∧ valueStart json [] = .ok w.length := by
  unfold valueStart
  rw [if_pos (by decide)]
  rcases skipSpaces_cases json 0 with ⟨h1, h2⟩ | ⟨j, c, h1, -, h3, h4, h5⟩
  · rw [h1]
    refine .inl ⟨rfl, ?_⟩
    unfold Ws
    rw [List.all_eq_true]
    intro x hx
    obtain ⟨m, hm⟩ := List.getElem?_of_mem hx
    exact h2 m x (Nat.zero_le _) hm
  · rw [h1]
    have hj := lt_of_getElem? h3
    refine .inr ⟨json.take j, json.drop (j + 1), c, ?_, ?_, h4, ?_⟩
    · have := drop_split (json := json) (a := 0) (Nat.zero_le j) h3
      simpa using this
    · have := ws_of_space (json := json) (lo := 0) (hi := j) (fun m b h6 h7 => h5 m b h6 h7)
      simpa using this
    · simp; omega

theorem valueStart_path (hj : Settled json) (hp : path ≠ []) :
    (∃ e, valueStart json path = .err e) ∨ ∃ a c, valueStart json path = .ok a ∧ json[a]? = some c := by
  unfold valueStart
  rw [if_neg (by simpa using hp)]
  rcases core_true hj hp with ⟨e, he⟩ | ⟨l, c, hl, hc⟩
  · exact .inl ⟨e, by rw [he]; rfl⟩
  · exact .inr ⟨l.start, c, by rw [hl]; rfl, hc⟩

theorem named_obj : Named bObj := by
  intro pre post h
  have : (58 : UInt8) ∈ bObj := by rw [h]; simp
  exact absurd this (by decide)

theorem given_obj {seps ends : List UInt8} {bad : Nat → Prop} (h : 123 ∉ seps ∧ 125 ∉ seps) : Given seps ends bad bObj := by
  intro pre c ws e post ht hc
  have : c ∈ bObj := by rw [ht]; simp
  simp only [bObj, List.mem_cons, List.not_mem_nil, or_false] at this
  rcases this with rfl | rfl
  · exact absurd hc h.1
  · exact absurd hc h.2

/-- The frame of the three readers: `good` is what makes the loop end. -/
theorem kvRun_iff {body : Bytes → Nat → KvSt → Ctl KvSt Unit} {good : Bytes → Prop}
    (hbody : ∀ a, json[a]? = some 123 → After (fun _ => good (json.drop a)) (fun _ => ¬ good (json.drop a))
      (forUp json.length (body json) a ⟨a, 0, 0, false, 0, [], []⟩)) {a : Nat} {c : UInt8} (hv : valueStart json path = .ok a)
    (hc : json[a]? = some c) (hne : json ≠ bObj) : kvRun body json path = .panic ↔ c = 123 ∧ ¬ good (json.drop a) := by
  have h1 : idx json (a : Int) = .ok c := by unfold idx at?; rw [if_neg (by omega)]; simp [hc]
  unfold kvRun
  rw [if_neg (by simpa using hne), hv]
  simp only [Out.bind_ok, h1]
  by_cases h123 : c = 123
  · subst h123
    have := hbody a hc
    simp only [beq_self_eq_true, if_true, true_and]
    cases hf : forUp json.length (body json) a ⟨a, 0, 0, false, 0, [], []⟩ with
    | done s => rw [hf] at this; exact ⟨(fun h => by cases h), fun h => absurd this h⟩
    | ret u => rw [hf] at this; exact ⟨fun _ => this, fun _ => rfl⟩
  · rw [if_neg (by simpa using h123)]
    exact ⟨(fun h => by cases h), fun h => absurd h.1 h123⟩

/-- The leading whitespace of a text is determined. -/
theorem split_unique : ∀ {w w' t t' : Bytes} {c c' : UInt8}, w ++ c :: t = w' ++ c' :: t' → Ws w = true → Ws w' = true → space c = false →
    space c' = false → w = w' ∧ c = c' ∧ t = t' := by
  intro w
  induction w with
  | nil =>
    intro w' t t' c c' h _ hw' hs _
    cases w' with
    | nil => simp at h; exact ⟨rfl, h⟩
    | cons y w' =>
      simp at h
      simp [Ws, List.all_cons] at hw'
      rw [show space c = isWs c from rfl, h.1, hw'.1] at hs; cases hs
  | cons x w ih =>
    intro w' t t' c c' h hw hw' hs hs'
    cases w' with
    | nil =>
      simp at h
      simp [Ws, List.all_cons] at hw
      rw [show space c' = isWs c' from rfl, ← h.1, hw.1] at hs'; cases hs'
    | cons y w' =>
      simp at h
      simp only [Ws, List.all_cons, Bool.and_eq_true] at hw hw'
      obtain ⟨h1, h2⟩ := ih h.2 hw.2 hw'.2 hs hs'
      exact ⟨by rw [h.1, h1], h2⟩

/-- On a whole text. -/
theorem kvRun_root {body : Bytes → Nat → KvSt → Ctl KvSt Unit} {good : Bytes → Prop}
    (hbody : ∀ a, json[a]? = some 123 → After (fun _ => good (json.drop a)) (fun _ => ¬ good (json.drop a))
      (forUp json.length (body json) a ⟨a, 0, 0, false, 0, [], []⟩)) (hg : good bObj) :
    kvRun body json [] = .panic ↔ Ws json = true ∨ ∃ w t, json = w ++ 123 :: t ∧ Ws w = true ∧ ¬ good (123 :: t) := by
  by_cases hne : json = bObj
  · have : kvRun body json [] = .err .empty := by unfold kvRun; rw [if_pos (by simpa using hne)]
    rw [this]
    refine ⟨(fun h => by cases h), fun h => ?_⟩
    rcases h with h | ⟨w, t, h, hw, hbad⟩
    · rw [hne] at h; cases h
    · cases w with
      | nil =>
        rw [hne] at h
        rw [show (123 : UInt8) :: t = bObj from h.symm] at hbad
        exact absurd hg hbad
      | cons x w =>
        rw [hne] at h
        have hx : x = 123 := by simp [bObj] at h; exact h.1.symm
        subst hx
        simp [Ws, isWs] at hw
  · rcases valueStart_root json with ⟨hv, hw⟩ | ⟨w, t, c, ht, hw, hs, hv⟩
    · have : kvRun body json [] = .panic := by unfold kvRun; rw [if_neg (by simpa using hne), hv]; rfl
      rw [this]
      exact ⟨fun _ => .inl hw, fun _ => rfl⟩
    · have hc : json[w.length]? = some c := by rw [ht]; simp
      have hd : json.drop w.length = c :: t := by rw [ht]; simp
      rw [kvRun_iff hbody hv hc hne, hd]
      constructor
      · rintro ⟨rfl, hbad⟩; exact .inr ⟨w, t, ht, hw, hbad⟩
      · rintro (hall | ⟨w', t', ht', hw', hbad⟩)
        · rw [ht] at hall
          unfold Ws at hall
          rw [List.all_eq_true] at hall
          have := hall c (by simp)
          rw [show isWs c = space c from rfl, hs] at this; cases this
        · obtain ⟨-, rfl, rfl⟩ := split_unique (ht.symm.trans ht') hw hw' hs (by decide)
          exact ⟨rfl, hbad⟩

/-- With a path. -/
theorem kvRun_path {body : Bytes → Nat → KvSt → Ctl KvSt Unit} {good : Bytes → Prop}
    (hbody : ∀ a, json[a]? = some 123 → After (fun _ => good (json.drop a)) (fun _ => ¬ good (json.drop a))
      (forUp json.length (body json) a ⟨a, 0, 0, false, 0, [], []⟩)) (hj : Settled json) (hp : path ≠ []) (hne : json ≠ bObj) :
    kvRun body json path = .panic ↔ ∃ a, valueStart json path = .ok a ∧ json[a]? = some 123 ∧ ¬ good (json.drop a) := by
  rcases valueStart_path hj hp with ⟨e, he⟩ | ⟨a, c, ha, hc⟩
  · have : kvRun body json path = .err e := by unfold kvRun; rw [if_neg (by simpa using hne), he]; rfl
    rw [this]
    exact ⟨(fun h => by cases h), fun ⟨a, h, _⟩ => by rw [he] at h; cases h⟩
  · rw [kvRun_iff hbody ha hc hne]
    constructor
    · rintro ⟨rfl, h⟩; exact ⟨a, ha, hc, h⟩
    · rintro ⟨b, hb, h1, h2⟩
      rw [ha] at hb; injection hb with hb; subst hb
      rw [hc] at h1; injection h1 with h1
      exact ⟨h1, h2⟩

theorem map_panic {α β : Type} {f : α → β} {r : Out α} : r.map f = .panic ↔ r = .panic := by
  cases r <;> simp [Out.map]

theorem keys_body (json : Bytes) (a : Nat) (h : json[a]? = some 123) :
    After (fun _ => Named (json.drop a)) (fun _ => ¬ Named (json.drop a))
      (forUp json.length (keysBody json) a ⟨a, 0, 0, false, 0, [], []⟩) :=
  keys_loop h ⟨.init _ _ _ _, fun _ => .init _ _ _, .init _ _ _ _⟩

theorem values_body (json : Bytes) (a : Nat) (h : json[a]? = some 123) :
    After (fun _ => Given valSeps valEnds badLen (json.drop a)) (fun _ => ¬ Given valSeps valEnds badLen (json.drop a))
      (forUp json.length (valuesBody json) a ⟨a, 0, 0, false, 0, [], []⟩) :=
  values_loop h ⟨.init _ _ _ _, fun h => h.elim, .init _ _ _ _⟩

theorem keysValues_body (json : Bytes) (a : Nat) (h : json[a]? = some 123) :
    After (fun _ => Named (json.drop a) ∧ Given valSeps valEnds badLen (json.drop a))
      (fun _ => ¬ (Named (json.drop a) ∧ Given valSeps valEnds badLen (json.drop a)))
      (forUp json.length (keysValuesBody json) a ⟨a, 0, 0, false, 0, [], []⟩) :=
  keysValues_loop h ⟨.init _ _ _ _, fun _ => .init _ _ _, .init _ _ _ _⟩

/-- **C91** `GetKeys` of a whole text panics on whitespace alone, and on an object that has a colon
directly inside before any string has ended; on nothing else. -/
theorem C91_getKeys (json : Bytes) :
    GetKeys json [] = .panic ↔ Ws json = true ∨ ∃ w t, json = w ++ 123 :: t ∧ Ws w = true ∧ ¬ Named (123 :: t) := by
  unfold GetKeys
  rw [map_panic]
  exact kvRun_root (good := Named) (keys_body json) named_obj

/-- **C91** `GetValues` of a whole text panics on whitespace alone, and on an object where nothing,
or only whitespace of at least four bytes, lies between a colon or comma directly inside and the
next comma or closing bracket. -/
theorem C91_getValues (json : Bytes) :
    GetValues json [] = .panic ↔ Ws json = true ∨ ∃ w t, json = w ++ 123 :: t ∧ Ws w = true ∧
      ¬ Given [58, 44] [44, 93, 125] (fun n => n = 0 ∨ 4 ≤ n) (123 :: t) := by
  unfold GetValues
  rw [map_panic]
  exact kvRun_root (good := Given valSeps valEnds badLen) (values_body json) (given_obj (by decide))

/-- **C91** `GetKeysValues` panics exactly where one of the two does. -/
theorem C91_getKeysValues (json : Bytes) :
    GetKeysValues json [] = .panic ↔ GetKeys json [] = .panic ∨ GetValues json [] = .panic := by
  unfold GetKeysValues
  rw [map_panic, C91_getKeys, C91_getValues,
    kvRun_root (good := fun t => Named t ∧ Given valSeps valEnds badLen t) (keysValues_body json) ⟨named_obj, given_obj (by decide)⟩]
  constructor
  · rintro (h | ⟨w, t, h1, h2, h3⟩)
    · exact .inl (.inl h)
    · by_cases hn : Named (123 :: t)
      · exact .inr (.inr ⟨w, t, h1, h2, fun hg => h3 ⟨hn, hg⟩⟩)
      · exact .inl (.inr ⟨w, t, h1, h2, hn⟩)
  · rintro ((h | ⟨w, t, h1, h2, h3⟩) | (h | ⟨w, t, h1, h2, h3⟩))
    · exact .inl h
    · exact .inr ⟨w, t, h1, h2, fun h => h3 h.1⟩
    · exact .inl h
    · exact .inr ⟨w, t, h1, h2, fun h => h3 h.2⟩

/-- **C91** The same with a path, from the place where the value starts. -/
theorem C91_path (json : Bytes) (path : List Bytes) (hp : path ≠ []) (hne : json ≠ [123, 125])
    (hj : ∀ c, json.getLast? = some c → c ∉ [32, 9, 10, 13, 58, 44, 91]) :
    (GetKeys json path = .panic ↔ ∃ a, valueStart json path = .ok a ∧ json[a]? = some 123 ∧ ¬ Named (json.drop a)) ∧
    (GetValues json path = .panic ↔ ∃ a, valueStart json path = .ok a ∧ json[a]? = some 123 ∧
      ¬ Given [58, 44] [44, 93, 125] (fun n => n = 0 ∨ 4 ≤ n) (json.drop a)) := by
  unfold GetKeys GetValues
  rw [map_panic, map_panic]
  exact ⟨kvRun_path (good := Named) (keys_body json) (settled_iff.2 hj) hp hne,
    kvRun_path (good := Given valSeps valEnds badLen) (values_body json) (settled_iff.2 hj) hp hne⟩

theorem ik_run {σ : Type} {cb : σ → Bytes → Bytes → Cb σ} {u : σ} (hcb : ∀ s k v, cb s k v ≠ .panic) {a : Nat} {c : UInt8}
    (hv : valueStart json path = .ok a) (hc : json[a]? = some c) (hne : json ≠ bObj) :
    (IterateKeyValue json cb path u = .panic → c = 123 ∧ ¬ (Named (json.drop a) ∧ Given [58] [125] (fun _ => True) (json.drop a))) ∧
      (Continues cb → c = 123 ∧ ¬ (Named (json.drop a) ∧ Given [58] [125] (fun _ => True) (json.drop a)) →
        IterateKeyValue json cb path u = .panic) := by
  unfold IterateKeyValue
  rw [if_neg (by simpa using hne), hv]
  simp only [hc]
  by_cases h123 : c = 123
  · subst h123
    have := ik_loop (json := json) (i := a) (a := a) hc hcb (t := ⟨a, 0, 0, 0, false, 0, [], u⟩)
      ⟨.init _ _ _ _, .init _ _ _, .init _ _ _ _, .inr ⟨rfl, rfl⟩, fun b hp => by have := hp.ge; have := hp.lt; omega⟩
    simp only [beq_self_eq_true, if_true, true_and]
    cases hf : forUp json.length (ikBody json cb) a ⟨a, 0, 0, 0, false, 0, [], u⟩ with
    | done s => rw [hf] at this; exact ⟨(fun h => by cases h), fun _ h => absurd this h⟩
    | ret r =>
      rw [hf] at this
      refine ⟨this.1, fun hcon hbad => ?_⟩
      cases r with
      | panic => rfl
      | done s e => exact absurd (this.2 hcon (fun h => by cases h)) hbad
  · rw [if_neg (by simpa using h123)]
    exact ⟨(fun h => by cases h), fun _ h => absurd h.1 h123⟩

/-- **C91** `IterateKeyValue` of a whole text, with a callback that does not panic: it panics only
on whitespace alone, on an object that has a colon directly inside before any string has ended, and
on one where a colon directly inside is followed by at most whitespace and `}`; and if the callback
always goes on, it does panic there. -/
theorem C91_iterateKeyValue {σ : Type} (json : Bytes) (cb : σ → Bytes → Bytes → Cb σ) (u : σ) (hcb : ∀ s k v, cb s k v ≠ .panic) :
    (IterateKeyValue json cb [] u = .panic → Ws json = true ∨ ∃ w t, json = w ++ 123 :: t ∧ Ws w = true ∧
      ¬ (Named (123 :: t) ∧ Given [58] [125] (fun _ => True) (123 :: t))) ∧
    ((∀ s k v, ∃ u', cb s k v = .ret u' true none) → (Ws json = true ∨ ∃ w t, json = w ++ 123 :: t ∧ Ws w = true ∧
      ¬ (Named (123 :: t) ∧ Given [58] [125] (fun _ => True) (123 :: t))) → IterateKeyValue json cb [] u = .panic) := by
  by_cases hne : json = bObj
  · have : IterateKeyValue json cb [] u = .done u (some .empty) := by unfold IterateKeyValue; rw [if_pos (by simpa using hne)]
    rw [this]
    refine ⟨(fun h => by cases h), fun _ h => ?_⟩
    rcases h with h | ⟨w, t, h, hw, hbad⟩
    · rw [hne] at h; cases h
    · obtain ⟨-, -, rfl⟩ := split_unique (w := []) (c := 123) (t := [125]) (hne.symm.trans h) rfl hw (by decide) (by decide)
      exact absurd ⟨named_obj, given_obj (by decide)⟩ hbad
  · rcases valueStart_root json with ⟨hv, hw⟩ | ⟨w, t, c, ht, hw, hs, hv⟩
    · have : IterateKeyValue json cb [] u = .panic := by unfold IterateKeyValue; rw [if_neg (by simpa using hne), hv]
      exact ⟨fun _ => .inl hw, fun _ _ => this⟩
    · have hc : json[w.length]? = some c := by rw [ht]; simp
      have hd : json.drop w.length = c :: t := by rw [ht]; simp
      have := ik_run (u := u) hcb hv hc hne
      rw [hd] at this
      refine ⟨fun h => ?_, fun hcon h => this.2 hcon ?_⟩
      · obtain ⟨rfl, h⟩ := this.1 h
        exact .inr ⟨w, t, ht, hw, h⟩
      · rcases h with hall | ⟨w', t', ht', hw', hbad⟩
        · rw [ht] at hall
          unfold Ws at hall
          rw [List.all_eq_true] at hall
          have := hall c (by simp)
          rw [show isWs c = space c from rfl, hs] at this; cases this
        · obtain ⟨-, rfl, rfl⟩ := split_unique (ht.symm.trans ht') hw hw' hs (by decide)
          exact ⟨rfl, hbad⟩

/-- **C91** With a path, on every text whose last byte is not one `core` reads past. -/
theorem C91_iterateKeyValue_path {σ : Type} (json : Bytes) (cb : σ → Bytes → Bytes → Cb σ) (path : List Bytes) (u : σ)
    (hcb : ∀ s k v, cb s k v ≠ .panic) (hp : path ≠ []) (hne : json ≠ [123, 125])
    (hj : ∀ c, json.getLast? = some c → c ∉ [32, 9, 10, 13, 58, 44, 91])
    (h : IterateKeyValue json cb path u = .panic) : ∃ a, valueStart json path = .ok a ∧ json[a]? = some 123 ∧
      ¬ (Named (json.drop a) ∧ Given [58] [125] (fun _ => True) (json.drop a)) := by
  rcases valueStart_path (settled_iff.2 hj) hp with ⟨e, he⟩ | ⟨a, c, ha, hc⟩
  · unfold IterateKeyValue at h
    rw [if_neg (by simpa [bObj] using hne), he] at h
    cases h
  · obtain ⟨rfl, hbad⟩ := (ik_run hcb ha hc hne).1 h
    exact ⟨a, ha, hc, hbad⟩

/-! Texts of each kind: objects that are not JSON and are read, and objects that are refused. -/

example : GetKeys (str "{\"a\" 1,}{:") [] = .ok [] ∧ GetKeys (str " {1:\"a\"}") [] = .panic ∧
    GetValues (str "{\"a\":   ,:1}") [] = .ok [str "", str "1"] ∧ GetValues (str "{\"a\":    }") [] = .panic ∧ GetValues (str "{\"a\":}") [] = .panic := by
  refine ⟨?_, ?_, ?_, ?_, ?_⟩ <;> decide +kernel

example : Named (str "{\"a\" 1,}{:") := by
  by_cases h : Named (str "{\"a\" 1,}{:")
  · exact h
  · have : GetKeys (str "{\"a\" 1,}{:") [] = .panic :=
      (C91_getKeys _).2 (.inr ⟨[], (str "{\"a\" 1,}{:").tail, by decide +kernel, by decide, by
        rwa [show (123 : UInt8) :: (str "{\"a\" 1,}{:").tail = str "{\"a\" 1,}{:" by decide +kernel]⟩)
    exact absurd this (by decide +kernel)

/-- **C91** So these functions do panic on arbitrary bytes. -/
theorem C91_fails : GetKeys (str "{:1}") [] = .panic ∧ GetValues (str "{\"a\":}") [] = .panic ∧
    GetKeysValues (str "{\"a\":1,}") [] = .panic ∧
    IterateKeyValue (str "{\"a\":1,\"b\":}") (fun (n : Nat) _ _ => .ret (n + 1) true none) [] 0 = .panic := by
  refine ⟨?_, ?_, ?_, ?_⟩ <;> decide +kernel

end Jin
