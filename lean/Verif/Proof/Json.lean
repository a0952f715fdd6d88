/-
What `Model/Log.lean` writes can be read (`Spec/Json.lean`).
-/
import Verif.Model.Log
import Verif.Spec.Json

namespace Flate.Proof.Js
open Flate.Model Flate.Model.Text Flate.Model.Enum Flate.Model.Log Flate.Spec

def ws (c : Char) : Bool := c == ' ' || c == '\t' || c == '\n' || c == '\r'

theorem skipWs_cons {c : Char} (h : ws c = false) (r : List Char) : skipWs (c :: r) = c :: r := by
  have h' : (c == ' ' || c == '\t' || c == '\n' || c == '\r') = false := h
  unfold skipWs
  rw [List.dropWhile_cons]
  simp [h']

/-! ### numbers -/

theorem fmtDec_digit {n : Nat} {c : Char} (h : c ∈ fmtDec n) : isDigit c = true := by
  have := Nat.isDigit_of_mem_toDigits (b := 10) (by decide) (by decide) h
  unfold Char.isDigit at this
  unfold isDigit
  simp only [ge_iff_le, Bool.and_eq_true, decide_eq_true_eq] at this ⊢
  exact ⟨this.1, this.2⟩

theorem digit_char {d : Nat} (h : d < 10) : (Nat.digitChar d).toNat - '0'.toNat = d ∧ (Nat.digitChar d = '0' → d = 0) := by
  have : ∀ d, d < 10 → (Nat.digitChar d).toNat - '0'.toNat = d ∧ (Nat.digitChar d = '0' → d = 0) := by decide
  exact this d h

theorem fmtDec_val : ∀ n : Nat, digitsVal (fmtDec n) = n := by
  intro n
  induction n using Nat.strongRecOn with
  | _ n ih =>
    by_cases h : n < 10
    · unfold fmtDec digitsVal
      rw [Nat.toDigits_of_lt_base h]
      simpa using (digit_char h).1
    · have e : fmtDec n = fmtDec (n / 10) ++ [Nat.digitChar (n % 10)] := by
        unfold fmtDec
        exact Nat.toDigits_of_base_le (by decide) (by omega)
      have i := ih (n / 10) (by omega)
      unfold digitsVal at i ⊢
      rw [e, List.foldl_append, i]
      have := (digit_char (Nat.mod_lt n (by decide : 0 < 10))).1
      simp only [List.foldl_cons, List.foldl_nil]
      omega

theorem fmtDec_zero : ∀ n : Nat, (fmtDec n).head? = some '0' → (fmtDec n).length = 1 := by
  intro n
  have key : ∀ n : Nat, 0 < n → (fmtDec n).head? ≠ some '0' := by
    intro n
    induction n using Nat.strongRecOn with
    | _ n ih =>
      intro hp
      by_cases h : n < 10
      · unfold fmtDec
        rw [Nat.toDigits_of_lt_base h]
        simp only [List.head?_cons, ne_eq, Option.some.injEq]
        intro e
        have := (digit_char h).2 e
        omega
      · have e : fmtDec n = fmtDec (n / 10) ++ [Nat.digitChar (n % 10)] := by
          unfold fmtDec
          exact Nat.toDigits_of_base_le (by decide) (by omega)
        rw [e]
        have hne : fmtDec (n / 10) ≠ [] := Nat.toDigits_ne_nil
        rw [List.head?_append_of_ne_nil _ hne]
        exact ih _ (by omega) (by omega)
  intro h
  rcases Nat.eq_zero_or_pos n with rfl | hp
  · rfl
  · exact absurd h (key n hp)

/-- what may follow a value -/
def Delim (rest : List Char) : Prop := ∀ c, rest.head? = some c → c = ',' ∨ c = ']' ∨ c = '}'

theorem takeWhile_all {p : Char → Bool} {w rest : List Char} (h : ∀ c ∈ w, p c = true) (hr : ∀ c, rest.head? = some c → p c = false) :
    (w ++ rest).takeWhile p = w ∧ (w ++ rest).dropWhile p = rest := by
  induction w with
  | nil =>
    cases rest with
    | nil => exact ⟨rfl, rfl⟩
    | cons c r => have := hr c rfl; simp [this]
  | cons a w ih =>
    have ha := h a (by simp)
    obtain ⟨i1, i2⟩ := ih fun c hc => h c (List.mem_cons_of_mem _ hc)
    simp [ha, i1, i2]

theorem readNat_dec (n : Nat) {rest : List Char} (hr : Delim rest) : readNat (fmtDec n ++ rest) = some (n, rest) := by
  obtain ⟨e1, e2⟩ := takeWhile_all (p := isDigit) (w := fmtDec n) (rest := rest) (fun c hc => fmtDec_digit hc) (fun c hc => by
    rcases hr c hc with rfl | rfl | rfl <;> decide)
  unfold readNat
  simp only [e1, e2, fmtDec_val]
  rw [if_neg]
  rintro (h | ⟨h, h'⟩ | h | h | h)
  · exact Nat.toDigits_ne_nil h
  · exact h' (fmtDec_zero n h)
  all_goals (rcases hr _ h with h | h | h <;> exact absurd h (by decide))

/-! ### values -/

/-- the text `t` is read as `j` -/
structure Reads (t : List Char) (j : Json) : Prop where
  head : ∃ c r, t = c :: r ∧ ws c = false ∧ c ≠ ']'
  read : ∀ n rest, t.length ≤ n → Delim rest → readValue n (t ++ rest) = some (j, rest)

theorem reads_null : Reads jsonNull .null where
  head := ⟨_, _, rfl, by decide, by decide⟩
  read n rest hn _ := by
    cases n with
    | zero => simp [jsonNull] at hn
    | succ n =>
      unfold readValue
      have e : jsonNull ++ rest = 'n' :: 'u' :: 'l' :: 'l' :: rest := rfl
      rw [e, skipWs_cons (by decide)]
      rfl

theorem reads_bool (b : Bool) : Reads (jsonBool b) (.bool b) where
  head := by cases b <;> exact ⟨_, _, rfl, by decide, by decide⟩
  read n rest hn _ := by
    cases n with
    | zero => cases b <;> simp [jsonBool] at hn
    | succ n =>
      unfold readValue
      cases b
      · have e : jsonBool false ++ rest = 'f' :: 'a' :: 'l' :: 's' :: 'e' :: rest := rfl
        rw [e, skipWs_cons (by decide)]
        rfl
      · have e : jsonBool true ++ rest = 't' :: 'r' :: 'u' :: 'e' :: rest := rfl
        rw [e, skipWs_cons (by decide)]
        rfl

theorem digit_cases {c : Char} (h : isDigit c = true) : ws c = false ∧ c ≠ 'n' ∧ c ≠ 't' ∧ c ≠ 'f' ∧ c ≠ '"' ∧ c ≠ '-' ∧ c ≠ '[' ∧ c ≠ '{' ∧ c ≠ ']' := by
  have h1 : ∀ d : Char, isDigit d = false → c ≠ d := fun d hd e => by rw [e, hd] at h; exact absurd h (by decide)
  refine ⟨?_, h1 _ (by decide), h1 _ (by decide), h1 _ (by decide), h1 _ (by decide), h1 _ (by decide), h1 _ (by decide), h1 _ (by decide), h1 _ (by decide)⟩
  unfold ws
  simp [h1 ' ' (by decide), h1 '\t' (by decide), h1 '\n' (by decide), h1 '\r' (by decide)]

theorem readValue_digit {c : Char} (h : isDigit c = true) (n : Nat) (r : List Char) :
    readValue (n + 1) (c :: r) = (readNat (c :: r)).map fun p => (.num p.1, p.2) := by
  obtain ⟨h0, h1, h2, h3, h4, h5, h6, h7, _⟩ := digit_cases h
  unfold readValue
  rw [skipWs_cons h0]
  split
  all_goals first
    | (exfalso; simp_all; done)
    | rfl

theorem reads_nat (n : Nat) : Reads (fmtDec n) (.nat n) where
  head := by
    have hne : fmtDec n ≠ [] := Nat.toDigits_ne_nil
    obtain ⟨c, r, e⟩ := List.exists_cons_of_ne_nil hne
    have hc : isDigit c = true := fmtDec_digit (n := n) (by rw [e]; simp)
    exact ⟨c, r, e, (digit_cases hc).1, (digit_cases hc).2.2.2.2.2.2.2.2⟩
  read k rest hk hr := by
    have hne : fmtDec n ≠ [] := Nat.toDigits_ne_nil
    obtain ⟨c, r, e⟩ := List.exists_cons_of_ne_nil hne
    have hc : isDigit c = true := fmtDec_digit (n := n) (by rw [e]; simp)
    cases k with
    | zero => rw [e] at hk; simp at hk
    | succ k =>
      have h2 := readNat_dec n hr
      rw [e, List.cons_append] at h2 ⊢
      rw [readValue_digit hc, h2]
      rfl

theorem reads_int (n : Int) : Reads (jsonInt n) (.num n) := by
  unfold jsonInt
  by_cases h : n < 0
  · rw [if_pos h]
    refine ⟨⟨_, _, rfl, by decide, by decide⟩, fun k rest hk hr => ?_⟩
    cases k with
    | zero => simp at hk
    | succ k =>
      unfold readValue
      rw [List.cons_append, skipWs_cons (by decide)]
      show Option.map _ (readNat (fmtDec n.natAbs ++ rest)) = _
      rw [readNat_dec _ hr]
      have : -(n.natAbs : Int) = n := by omega
      simp [this]
  · rw [if_neg h]
    have := reads_nat n.toNat
    have e : Json.nat n.toNat = .num n := by
      unfold Json.nat
      congr 1
      omega
    rwa [e] at this

/-! ### strings -/

/-- the text `t`, without its quotation marks, is read as the characters `s` -/
def Spells (t s : List Char) : Prop := ∀ rest x, readString rest = some x → readString (t ++ rest) = some (s ++ x.1, x.2)

theorem spells_nil : Spells [] [] := fun _ _ h => h

theorem spells_append {t t' s s' : List Char} (h : Spells t s) (h' : Spells t' s') : Spells (t ++ t') (s ++ s') := fun rest x e => by
  have := h (t' ++ rest) _ (h' rest x e)
  rw [List.append_assoc, this, List.append_assoc]

/-- a character which needs no escape sequence -/
def Plain (c : Char) : Prop := c ≠ '"' ∧ c ≠ '\\' ∧ ¬ c < ' '

theorem spells_plain {c : Char} (h : Plain c) : Spells [c] [c] := fun rest x e => by
  obtain ⟨h1, h2, h3⟩ := h
  rw [List.singleton_append]
  unfold readString
  split
  · simp_all
  · simp_all
  · simp_all
  · simp_all
  · rename_i a r _ _ _ heq
    simp only [List.cons.injEq] at heq
    obtain ⟨rfl, rfl⟩ := heq
    rw [if_neg h3, e]
    rfl

theorem spells_hex {a b c d x : Char} (h : hexChar a b c d = some x) : Spells ['\\', 'u', a, b, c, d] [x] := fun rest y e => by
  show readString ('\\' :: 'u' :: a :: b :: c :: d :: rest) = _
  unfold readString
  simp only [h, e]
  rfl

theorem spells_esc {c x : Char} (h : escapeChar c = some x) (hu : c ≠ 'u') : Spells ['\\', c] [x] := fun rest y e => by
  show readString ('\\' :: c :: rest) = _
  unfold readString
  split
  · simp_all
  · simp_all
  · simp_all
  · rename_i a r _ heq
    simp only [List.cons.injEq, true_and] at heq
    obtain ⟨rfl, rfl⟩ := heq
    rw [h, e]
    rfl
  · rename_i heq
    simp only [List.cons.injEq] at heq
    obtain ⟨rfl, rfl⟩ := heq
    simp_all

theorem spells_word {w : List Char} (h : ∀ c ∈ w, Plain c) : Spells w w := by
  induction w with
  | nil => exact spells_nil
  | cons c w ih => exact spells_append (spells_plain (h c (by simp))) (ih fun x hx => h x (List.mem_cons_of_mem _ hx))

theorem spells_end {t s : List Char} (h : Spells t s) (rest : List Char) : readString (t ++ '"' :: rest) = some (s, rest) := by
  have := h ('"' :: rest) ([], rest) (by unfold readString; rfl)
  rwa [List.append_nil] at this

theorem reads_str {t s : List Char} (h : Spells t s) : Reads ('"' :: (t ++ ['"'])) (.str s) where
  head := ⟨_, _, rfl, by decide, by decide⟩
  read n rest hn _ := by
    cases n with
    | zero => simp at hn
    | succ n =>
      unfold readValue
      rw [List.cons_append, skipWs_cons (by decide)]
      show Option.map _ (readString (t ++ ['"'] ++ rest)) = _
      rw [List.append_assoc, List.singleton_append, spells_end h]
      rfl

theorem reads_word {w : List Char} (h : ∀ c ∈ w, Plain c) : Reads (jsonQuote w) (.str w) := reads_str (spells_word h)

/-! ### arrays and objects -/

theorem delim_comma (r : List Char) : Delim (',' :: r) := fun c h => by cases h; exact .inl rfl
theorem delim_bracket (r : List Char) : Delim (']' :: r) := fun c h => by cases h; exact .inr (.inl rfl)
theorem delim_brace (r : List Char) : Delim ('}' :: r) := fun c h => by cases h; exact .inr (.inr rfl)

theorem readItems_commas : ∀ {ts : List (List Char)} {js : List Json}, List.Forall₂ Reads ts js → ts ≠ [] → ∀ n rest, (commas ts).length + 1 ≤ n →
    readItems n (commas ts ++ ']' :: rest) = some (js, rest)
  | [], _, _, h, _, _, _ => absurd rfl h
  | [t], _, .cons (b := j) h .nil, _, n, rest, hn => by
    cases n with
    | zero => omega
    | succ n =>
      unfold readItems
      have e : commas [t] = t := rfl
      rw [e, h.read n _ (by simpa [commas] using hn) (delim_bracket _)]
      simp only
      rw [skipWs_cons (by decide)]
      rfl
  | t :: t' :: ts, _, .cons (b := j) (l₂ := js) h hs, _, n, rest, hn => by
    cases n with
    | zero => omega
    | succ n =>
      have hl : (commas (t :: t' :: ts)).length = t.length + ((commas (t' :: ts)).length + 1) := by simp [commas]
      unfold readItems
      have e : commas (t :: t' :: ts) ++ ']' :: rest = t ++ ',' :: (commas (t' :: ts) ++ ']' :: rest) := by simp [commas]
      rw [e, h.read n _ (by omega) (delim_comma _)]
      simp only
      rw [skipWs_cons (by decide)]
      simp only
      have hp : 0 < t.length := by obtain ⟨c, r, e, _⟩ := h.head; rw [e]; simp
      rw [readItems_commas hs (by simp) n rest (by omega)]
      rfl

theorem head_commas {t : List Char} {ts : List (List Char)} {c : Char} {r : List Char} (h : t = c :: r) : ∃ r', commas (t :: ts) = c :: r' := by
  cases ts with
  | nil => exact ⟨r, by simp [commas, h]⟩
  | cons a l => exact ⟨r ++ ',' :: commas (a :: l), by simp [commas, h]⟩

theorem reads_array {ts : List (List Char)} {js : List Json} (h : List.Forall₂ Reads ts js) : Reads (jsonArray ts) (.arr js) where
  head := ⟨_, _, rfl, by decide, by decide⟩
  read n rest hn _ := by
    cases n with
    | zero => simp [jsonArray] at hn
    | succ n =>
      unfold readValue jsonArray
      rw [List.cons_append, skipWs_cons (by decide)]
      simp only
      cases h with
      | nil =>
        have e : commas [] ++ [']'] ++ rest = ']' :: rest := rfl
        rw [e, skipWs_cons (by decide)]
        rfl
      | @cons t j ts js h hs =>
        obtain ⟨c, r, e, hw, hc⟩ := h.head
        obtain ⟨r', e'⟩ := head_commas (ts := ts) e
        have hi := readItems_commas (List.Forall₂.cons h hs) (by simp) n rest (by simp [jsonArray] at hn; omega)
        rw [List.append_assoc, List.singleton_append]
        rw [e', List.cons_append] at hi ⊢
        rw [skipWs_cons hw]
        split
        · rename_i heq
          simp only [List.cons.injEq] at heq
          exact absurd heq.1 hc
        · rw [hi]; rfl

/-- the text of a member is read as the member -/
def ReadsM (p : String × List Char) (q : List Char × Json) : Prop := p.1.toList = q.1 ∧ (∀ c ∈ p.1.toList, Plain c) ∧ Reads p.2 q.2

def memText (p : String × List Char) : List Char := jsonQuote p.1.toList ++ ':' :: p.2

theorem readMembers_commas : ∀ {ts : List (String × List Char)} {js : List (List Char × Json)}, List.Forall₂ ReadsM ts js → ts ≠ [] → ∀ n rest,
    (commas (ts.map memText)).length + 1 ≤ n → readMembers n (commas (ts.map memText) ++ '}' :: rest) = some (js, rest)
  | [], _, _, h, _, _, _ => absurd rfl h
  | [t], _, .cons (b := j) h .nil, _, n, rest, hn => by
    cases n with
    | zero => omega
    | succ n =>
      obtain ⟨k, v⟩ := t
      obtain ⟨k', j⟩ := j
      obtain ⟨e, hp, hv⟩ := h
      simp only at e hp hv
      subst e
      unfold readMembers
      have e1 : commas ([(k, v)].map memText) ++ '}' :: rest = '"' :: (k.toList ++ '"' :: (':' :: (v ++ '}' :: rest))) := by
        simp [commas, memText, jsonQuote]
      have hl : (commas ([(k, v)].map memText)).length = k.toList.length + v.length + 3 := by
        simp [commas, memText, jsonQuote]; omega
      rw [e1, skipWs_cons (by decide)]
      simp only
      rw [spells_end (spells_word hp)]
      simp only
      rw [skipWs_cons (by decide)]
      simp only
      rw [hv.read n _ (by omega) (delim_brace _)]
      simp only
      rw [skipWs_cons (by decide)]
      rfl
  | t :: t' :: ts, _, .cons (b := j) (l₂ := js) h hs, _, n, rest, hn => by
    cases n with
    | zero => omega
    | succ n =>
      obtain ⟨k, v⟩ := t
      obtain ⟨k', j⟩ := j
      obtain ⟨e, hp, hv⟩ := h
      simp only at e hp hv
      subst e
      have hl : (commas (((k, v) :: t' :: ts).map memText)).length = k.toList.length + v.length + 3 + (commas ((t' :: ts).map memText)).length + 1 := by
        simp [commas, memText, jsonQuote]; omega
      unfold readMembers
      have e1 : commas (((k, v) :: t' :: ts).map memText) ++ '}' :: rest =
          '"' :: (k.toList ++ '"' :: (':' :: (v ++ ',' :: (commas ((t' :: ts).map memText) ++ '}' :: rest)))) := by
        simp [commas, memText, jsonQuote]
      rw [e1, skipWs_cons (by decide)]
      simp only
      rw [spells_end (spells_word hp)]
      simp only
      rw [skipWs_cons (by decide)]
      simp only
      rw [hv.read n _ (by omega) (delim_comma _)]
      simp only
      rw [skipWs_cons (by decide)]
      simp only
      rw [readMembers_commas hs (by simp) n rest (by omega)]
      rfl

theorem reads_struct {ts : List (String × List Char)} {js : List (List Char × Json)} (h : List.Forall₂ ReadsM ts js) (hne : ts ≠ []) :
    Reads (jsonStruct ts) (.obj js) where
  head := ⟨_, _, rfl, by decide, by decide⟩
  read n rest hn _ := by
    cases n with
    | zero => simp [jsonStruct] at hn
    | succ n =>
      have hi := readMembers_commas h hne n rest (by
        have : (jsonStruct ts).length = (commas (ts.map memText)).length + 2 := by simp [jsonStruct]; rfl
        omega)
      have e0 : jsonStruct ts ++ rest = '{' :: (commas (ts.map memText) ++ '}' :: rest) := by
        simp [jsonStruct]; rfl
      unfold readValue
      rw [e0, skipWs_cons (by decide)]
      simp only
      obtain ⟨t, l, rfl⟩ := List.exists_cons_of_ne_nil hne
      obtain ⟨r', e'⟩ := head_commas (t := memText t) (ts := l.map memText) (c := '"') (r := t.1.toList ++ '"' :: ':' :: t.2) (by simp [memText, jsonQuote])
      rw [List.map_cons] at hi ⊢
      rw [e', List.cons_append] at hi ⊢
      rw [skipWs_cons (by decide)]
      show Option.map _ (readMembers n ('"' :: (r' ++ '}' :: rest))) = _
      rw [hi]
      rfl

theorem reads_json {t : List Char} {j : Json} (h : Reads t j) : readJson t = some j := by
  have := h.read t.length [] (Nat.le_refl _) (fun c hc => by cases hc)
  rw [List.append_nil] at this
  unfold readJson
  rw [this]
  simp [skipWs]

end Flate.Proof.Js
