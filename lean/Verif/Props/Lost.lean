import Verif.Proof.Lost
import Verif.Model.Others
import Verif.Props.Sample
/-!
# Property C141: a path that leads nowhere is refused alike by every function

No assumption is made about the bytes of the text.
-/

namespace Jin

section
variable {F : Type} (fl : FloatLib F) (isFloat : Bytes → Bool) {json : Bytes} {path : List Bytes} {e : Err}

theorem core_of_get_err (hp : path ≠ []) (h : Get json path = .err e) : core json false path = .err e := by
  unfold Get at h
  have : (path.length == 0) = false := by simpa using hp
  rw [this] at h
  cases hc : core json false path with
  | err e' => rw [hc] at h; cases h; rfl
  | panic => rw [hc] at h; cases h
  | ok l =>
    rw [hc] at h
    simp only [Bool.false_eq_true, if_false, Out.bind_ok] at h
    unfold slice at h
    split at h <;> cases h

theorem get_err_of_core (hp : path ≠ []) (h : core json false path = .err e) : Get json path = .err e := by
  unfold Get
  have : (path.length == 0) = false := by simpa using hp
  rw [this, h]; rfl

/-- **C141** What `Get` reports for a path the readers report too, whatever the text is. -/
theorem C141_readers (hp : path ≠ []) (h : Get json path = .err e) :
    GetString json path = .err e ∧ GetInt json path = .err e ∧ GetFloat fl json path = .err e ∧ GetBool json path = .err e ∧
    GetStringArray json path = .err e ∧ GetIntArray json path = .err e ∧ GetFloatArray fl json path = .err e ∧
    GetBoolArray json path = .err e ∧ IsEmpty json path = .err e := by
  have hc := core_of_get_err hp h
  have hl : (path.length == 0) = false := by simpa using hp
  refine ⟨h, ?_, ?_, ?_, ?_, ?_, ?_, ?_, ?_⟩
  · unfold GetInt GetString; rw [h]; rfl
  · unfold GetFloat GetString; rw [h]; rfl
  · unfold GetBool GetString; rw [h]; rfl
  · unfold GetStringArray GetString; rw [h]; rfl
  · unfold GetIntArray GetString; rw [h]; rfl
  · unfold GetFloatArray GetString; rw [h]; rfl
  · unfold GetBoolArray GetString; rw [h]; rfl
  · unfold IsEmpty emptySpan
    rw [hl, hc]
    cases hj : json.length == 0 with
    | false => rfl
    | true =>
      unfold core at hc
      rw [if_pos (by have := eq_of_beq hj; omega)] at hc
      cases hc; rfl

/-- **C141** The mutators report it and return the text they were given. -/
theorem C141_writers (hp : path ≠ []) (h : Get json path = .err e) (v key : Bytes) (b : Bool) (n i : Int) (x : F) :
    Set json v path = .done json (some e) ∧ SetString isFloat json v path = .done json (some e) ∧
    SetInt json n path = .done json (some e) ∧ SetFloat fl json x path = .done json (some e) ∧
    SetBool json b path = .done json (some e) ∧ Delete json path = .done json (some e) ∧
    Add json v path = .done json (some e) ∧ AddString isFloat json v path = .done json (some e) ∧
    AddInt json n path = .done json (some e) ∧ AddFloat fl json x path = .done json (some e) ∧
    AddBool json b path = .done json (some e) ∧
    AddKeyValue json key none path = .done json (some e) ∧ AddKeyValue json key (some v) path = .done json (some e) ∧
    Insert json i v path = .done json (some e) := by
  have hc := core_of_get_err hp h
  have hl : (path.length == 0) = false := by simpa using hp
  have hset : ∀ v, Set json v path = .done json (some e) := by
    intro v; unfold Set; rw [hl, hc]; rfl
  have hspan : ∀ o c err, containerSpan json o c err path = .err e := by
    intro o c err; unfold containerSpan; rw [hl, hc]; rfl
  have hshort : json.length < 2 → e = .badJSON 0 := by
    intro hs; unfold core at hc; rw [if_pos hs] at hc; cases hc; rfl
  have hadd : ∀ v, Add json v path = .done json (some e) := by
    intro v; unfold Add
    by_cases hs : json.length < 2
    · rw [if_pos hs, hshort hs]
    · rw [if_neg hs, hspan]; rfl
  have hkv : ∀ v, addKeyValue json key v path = .done json (some e) := by
    intro v; unfold addKeyValue
    by_cases hs : json.length < 2
    · rw [if_pos hs, hshort hs]
    · rw [if_neg hs, hspan]; rfl
  refine ⟨hset v, hset _, hset _, hset _, hset _, ?_, hadd v, hadd _, hadd _, hadd _, hadd _, hkv _, hkv v, ?_⟩
  · unfold Delete; rw [hl, hc]; rfl
  · unfold Insert; rw [hspan]; rfl

/-- **C141** The typed forms that test the key or the index first report it when that test lets them. -/
theorem C141_guarded (hp : path ≠ []) (h : Get json path = .err e) (v key : Bytes) (b : Bool) (n i : Int) (x : F) (hk : key ≠ []) (hi : 0 ≤ i) :
    AddKeyValueString isFloat json key v path = .done json (some e) ∧ AddKeyValueInt json key n path = .done json (some e) ∧
    AddKeyValueFloat fl json key x path = .done json (some e) ∧ AddKeyValueBool json key b path = .done json (some e) ∧
    InsertString isFloat json i v path = .done json (some e) ∧ InsertInt json i n path = .done json (some e) ∧
    InsertFloat fl json i x path = .done json (some e) ∧ InsertBool json i b path = .done json (some e) := by
  have hk' : (key.length == 0) = false := by simpa using hk
  have hi' : ¬i < 0 := by omega
  have hkv : ∀ v, AddKeyValue json key (some v) path = .done json (some e) := fun v =>
    (C141_writers fl isFloat hp h v key b n i x).2.2.2.2.2.2.2.2.2.2.2.2.1
  have hin : ∀ v, Insert json i v path = .done json (some e) := fun v =>
    (C141_writers fl isFloat hp h v key b n i x).2.2.2.2.2.2.2.2.2.2.2.2.2
  have ha : ∀ t, addKV json key (.ok t) path = .done json (some e) := by
    intro t; unfold addKV; rw [hk']; exact hkv t
  have hb : ∀ t, insertText json i (.ok t) path = .done json (some e) := by
    intro t; unfold insertText; rw [if_neg hi']; exact hin t
  refine ⟨?_, ha _, ha _, ha _, ?_, hb _, hb _, hb _⟩
  · unfold AddKeyValueString; rw [hk']; exact hkv _
  · unfold InsertString; rw [if_neg hi']; exact hin _

/-- **C141 (partial)** `Length` and `GetMap` report it, unless the whole text is `[]` or `{}` (`C141_fails`). -/
theorem C141_length_partial (hp : path ≠ []) (h : Get json path = .err e) (h1 : json ≠ str "[]") (h2 : json ≠ str "{}") :
    Length json path = .err e ∧ GetMap json path = .err e := by
  have e1 : str "[]" = bArr := by decide +kernel
  have e2 : str "{}" = bObj := by decide +kernel
  rw [e1] at h1; rw [e2] at h2
  have hc := core_of_get_err hp h
  have hl : (path.length != 0) = true := by simpa using hp
  have hs : getStartEnd json path = .err e := by
    unfold getStartEnd
    by_cases hs : json.length < 2
    · unfold core at hc; rw [if_pos hs] at hc; cases hc; rw [if_pos hs]
    · rw [if_neg hs, hl, hc]; rfl
  have hn : (json == bArr || json == bObj) = false := by
    rw [Bool.or_eq_false_iff]; exact ⟨beq_false_of_ne h1, beq_false_of_ne h2⟩
  unfold Length GetMap
  rw [hn, hs]; exact ⟨rfl, rfl⟩

/-- **C141** A longer path is refused where the shorter one is. -/
theorem C141_longer (hp : path ≠ []) (h : Get json path = .err e) (hl : e.lost = true) (q : List Bytes) :
    Get json (path ++ q) = .err e :=
  get_err_of_core (by simp [hp]) (Lost.core_lost hl (core_of_get_err hp h) q false)

theorem start_lost (hp : path ≠ []) (h : Get json path = .err e) (hl : e.lost = true) : valueStart json path = .err e := by
  have hn : (path.length == 0) = false := by simpa using hp
  have hc := Lost.core_lost hl (core_of_get_err hp h) [] true
  rw [List.append_nil] at hc
  unfold valueStart; rw [hn, hc]; rfl

/-- **C141** The functions that look only for the beginning of the value report a path that leads nowhere too. -/
theorem C141_types (hp : path ≠ []) (h : Get json path = .err e) (hl : e.lost = true) :
    IsObject json path = .err e ∧ IsArray json path = .err e ∧ IsValue json path = .err e ∧ GetType isFloat json path = .err e := by
  have hs := start_lost hp h hl
  have hc := core_of_get_err hp h
  have hj : (json.length == 0) = false := by
    cases hj : json.length == 0 with
    | false => rfl
    | true =>
      unfold core at hc
      rw [if_pos (by have := eq_of_beq hj; omega)] at hc
      cases hc; cases hl
  have ht : ∀ c b, typeControlCore json c b path = .err e := by
    intro c b; unfold typeControlCore; rw [hj, hs]; rfl
  unfold IsObject IsArray IsValue GetType
  rw [ht, ht, ht, ht]
  exact ⟨rfl, rfl, rfl, rfl⟩

/-- **C141 (partial)** So do the functions on the members of an object, unless the whole text is `{}` (`C141_fails`). -/
theorem C141_members_partial {σ : Type} (cb : σ → Bytes → Bytes → Cb σ) (u : σ) (hp : path ≠ []) (h : Get json path = .err e)
    (hl : e.lost = true) (h2 : json ≠ str "{}") :
    GetKeys json path = .err e ∧ GetValues json path = .err e ∧ GetKeysValues json path = .err e ∧
    IterateKeyValue json cb path u = .done u (some e) := by
  have e2 : str "{}" = bObj := by decide +kernel
  rw [e2] at h2
  have hs := start_lost hp h hl
  have hn : (json == bObj) = false := beq_false_of_ne h2
  have hk : ∀ b, kvRun b json path = .err e := by
    intro b; unfold kvRun; rw [hn, hs]; rfl
  unfold GetKeys GetValues GetKeysValues IterateKeyValue
  rw [hk, hk, hk, hn, hs]
  exact ⟨rfl, rfl, rfl, rfl⟩

/-- **C141 (partial)** So does `IterateArray`, unless the text has just two bytes (`C141_fails`). -/
theorem C141_elements_partial {σ : Type} (cb : σ → Bytes → Cb σ) (u : σ) (hp : path ≠ []) (h : Get json path = .err e)
    (hl : e.lost = true) (h2 : json.length ≠ 2) : IterateArray json cb path u = .done u (some e) := by
  have hc := core_of_get_err hp h
  have hn : (path.length == 0) = false := by simpa using hp
  have ht := Lost.core_lost hl hc [] true
  rw [List.append_nil] at ht
  have hj : ¬json.length < 2 := by
    intro hj; unfold core at hc; rw [if_pos hj] at hc; cases hc; cases hl
  unfold IterateArray
  rw [if_neg hj, beq_false_of_ne h2, hn, ht]; rfl

/-- **C141** `Store`, `GetAll` and `GetAllMap`, which make a longer path, report it for every key. -/
theorem C141_below (hp : path ≠ []) (h : Get json path = .err e) (hl : e.lost = true) (key : Bytes) (keys : List Bytes)
    (v : Option Bytes) :
    Store json key v path = .done json (some e) ∧ GetAll json (key :: keys) path = .err e ∧
    GetAllMap json (key :: keys) path = .err e := by
  have hg := C141_longer hp h hl [key]
  have hc := core_of_get_err (by simp) hg
  refine ⟨?_, ?_, ?_⟩
  · unfold Store
    rw [hc]
    cases he : errEqual (some e) codeKeyNotFound
    · simp [he]
    · simp only [he, if_true]
      have hw := C141_writers (F := Unit) ⟨fun _ => none, fun _ => []⟩ (fun _ => false) hp h (v.getD []) key false 0 0 ()
      cases v with
      | none => exact hw.2.2.2.2.2.2.2.2.2.2.2.1
      | some v => exact hw.2.2.2.2.2.2.2.2.2.2.2.2.1
  · unfold GetAll GetString; rw [hg]; rfl
  · unfold GetAllMap getAllMapLoop GetString; rw [hg]; rfl

/-- **C141** `SetKey` reports it when the object whose member is to be renamed is not there. -/
theorem C141_setKey (hp : path ≠ []) (h : Get json path = .err e) (hl : e.lost = true) (k newKey : Bytes) (hk : newKey ≠ []) :
    SetKey json newKey (path ++ [k]) = .done json (some e) := by
  have h1 := core_of_get_err (by simp) (C141_longer hp h hl [newKey])
  have h2 := core_of_get_err (by simp) (C141_longer hp h hl [k])
  unfold SetKey
  rw [List.dropLast_concat, h1, h2]
  have : (newKey.length == 0) = false := by simpa using hk
  have : ((path ++ [k]).length == 0) = false := by simp
  simp only [*]
  cases errEqual (some e) codeKeyNotFound <;> rfl

end

/-- **C141** fails without these conditions: on the texts `{}` and `[]` some functions do not look at the path at
all, and a value that is not closed is an error for `Get` but not for the functions that read only its beginning. -/
theorem C141_fails :
    Get (str "{}") [str "a"] = .err (.keyNotFound (str "a")) ∧ Length (str "{}") [str "a"] = .ok 0 ∧
    GetMap (str "{}") [str "a"] = .ok none ∧ GetKeys (str "{}") [str "a"] = .err .empty ∧
    Get (str "[]") [str "3"] = .err .indexOutOfRange ∧ Length (str "[]") [str "3"] = .ok 0 ∧
    IterateArray (str "[]") (fun (u : Nat) _ => .ret (u + 1) true none) [str "3"] 0 = .done 0 none ∧
    Get (str "{\"a\":[1") [str "a"] = .err (.badJSON 5) ∧ IsArray (str "{\"a\":[1") [str "a"] = .ok true := by
  decide +kernel

/-- A path into the sample document that leads nowhere in its second step, and what a longer one gives. -/
example : Get Sample.doc.render [str "b\\\"]", str "x"] = .err .indexExpected ∧
    Get Sample.doc.render [str "b\\\"]", str "x", str "y", str "0"] = .err .indexExpected := by
  have h : Get Sample.doc.render [str "b\\\"]", str "x"] = .err .indexExpected := by decide +kernel
  exact ⟨h, C141_longer (by simp) h rfl [str "y", str "0"]⟩

/-- A key that is missing, a text with more behind the document. -/
example : Get (str "{\"a\":{\"b\":1}} x") [str "a", str "c"] = .err (.keyNotFound (str "c")) ∧
    Store (str "{\"a\":{\"b\":1}} x") (str "k") (some (str "2")) [str "a", str "c"] =
      .done (str "{\"a\":{\"b\":1}} x") (some (.keyNotFound (str "c"))) := by
  have h : Get (str "{\"a\":{\"b\":1}} x") [str "a", str "c"] = .err (.keyNotFound (str "c")) := by decide +kernel
  exact ⟨h, (C141_below (by simp) h rfl _ [] _).1⟩

end Jin
