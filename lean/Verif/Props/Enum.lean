/-
C72: names of options.  C73: size lists as JSON.
-/
import Verif.Model.Enum
import Verif.Props.Text

namespace Flate.Props
open Flate Flate.Model Flate.Model.Text Flate.Model.Enum

/-- `s` is the word `w` (ASCII), whatever the case of its letters (as Unicode folds them) -/
def IsWord (s : List Char) (w : String) : Prop := s.map Enum.fold = w.toList.map Enum.fold

instance (s : List Char) (w : String) : Decidable (IsWord s w) := inferInstanceAs (Decidable (_ = _))

/-- the spellings of a row, folded -/
def spellings (go : Bool) (r : Row) : List (List Char) :=
  (r.name :: r.aliases ++ (if go then [r.goName] else [])).map (·.map Enum.fold)

theorem answers_iff (go : Bool) (s : List Char) (r : Row) : r.answers go s = true ↔ s.map Enum.fold ∈ spellings go r := by
  have e : ∀ l : List (List Char), (l.any (sameFold s)) = true ↔ s.map Enum.fold ∈ l.map (·.map Enum.fold) := by
    intro l
    simp only [List.any_eq_true, sameFold, beq_iff_eq, List.mem_map]
    exact ⟨fun ⟨x, a, b⟩ => ⟨x, a, b.symm⟩, fun ⟨x, a, b⟩ => ⟨x, a, b.symm⟩⟩
  have e1 : ∀ w, sameFold s w = true ↔ s.map Enum.fold = w.map Enum.fold := fun w => by simp [sameFold]
  rw [Row.answers, spellings]
  cases go
  · simp only [Bool.or_eq_true, e, e1, Bool.false_and, Bool.false_eq_true, or_false, if_false, List.append_nil, List.map_cons, List.mem_cons]
  · simp only [Bool.or_eq_true, e, e1, Bool.true_and, if_true, List.map_cons, List.mem_cons, List.map_append, List.mem_append,
      List.cons_append, List.map_nil, List.not_mem_nil, or_false, or_assoc]

/-- no spelling belongs to two rows -/
def Distinct (go : Bool) (data : List Row) : Prop := data.Pairwise fun a b => ∀ u ∈ spellings go a, u ∉ spellings go b

instance (go : Bool) (data : List Row) : Decidable (Distinct go data) := inferInstanceAs (Decidable (List.Pairwise _ _))

theorem parseEnum_iff {go : Bool} {data : List Row} (h : Distinct go data) (s : List Char) (i : Nat) :
    parseEnum go data s = some i ↔ ∃ r, data[i]? = some r ∧ r.answers go s = true := by
  unfold parseEnum
  induction data generalizing i with
  | nil => simp
  | cons a l ih =>
    rw [Distinct, List.pairwise_cons] at h
    rw [List.findIdx?_cons]
    by_cases ha : a.answers go s = true
    · rw [if_pos ha]
      constructor
      · intro e; cases e; exact ⟨a, rfl, ha⟩
      · rintro ⟨r, hr, hs⟩
        cases i with
        | zero => rfl
        | succ i =>
          have hm : r ∈ l := List.mem_of_getElem? (by simpa using hr)
          exact absurd ((answers_iff _ _ _).1 hs) (h.1 r hm _ ((answers_iff _ _ _).1 ha))
    · rw [if_neg ha]
      cases i with
      | zero => simp [ha]
      | succ i => simpa using ih h.2 i

theorem format_distinct (go : Bool) : Distinct go formatData := by cases go <;> decide +kernel
theorem strategy_distinct (go : Bool) : Distinct go strategyData := by cases go <;> decide +kernel

/-- C72: the spellings which `Format.Parse` accepts, and what they mean. `go`: whether names of constants are accepted too. -/
theorem C72_format_parse (go : Bool) (s : List Char) (f : Format) : formatParse go s = some f ↔
    (f = .default ∧ (IsWord s "auto" ∨ IsWord s "default" ∨ (go = true ∧ IsWord s "DefaultFormat"))) ∨
    (f = .raw ∧ (IsWord s "raw" ∨ (go = true ∧ IsWord s "RawFormat"))) ∨
    (f = .zlib ∧ (IsWord s "zlib" ∨ (go = true ∧ IsWord s "ZlibFormat"))) ∨
    (f = .gzip ∧ (IsWord s "gzip" ∨ (go = true ∧ IsWord s "GZIPFormat"))) := by
  have e : formatParse go s = some f ↔ parseEnum go formatData s = some (Format.num f) := by
    unfold formatParse
    constructor
    · intro h
      obtain ⟨i, hi, hf⟩ := Option.bind_eq_some_iff.1 h
      rw [hi]
      match i, hf with
      | 0, h => cases h; rfl
      | 1, h => cases h; rfl
      | 2, h => cases h; rfl
      | 3, h => cases h; rfl
      | _ + 4, h => cases h
    · intro h; rw [h]; cases f <;> rfl
  rw [e, parseEnum_iff (format_distinct go)]
  cases f <;> simp [Format.num, formatData, Row.answers, sameFold, IsWord, or_assoc]

/-- C72: the spellings which `Strategy.Parse` accepts -/
theorem C72_strategy_parse (go : Bool) (s : List Char) (f : Strategy) : strategyParse go s = some f ↔
    (f = .default ∧ (IsWord s "default" ∨ (go = true ∧ IsWord s "DefaultStrategy"))) ∨
    (f = .huffmanOnly ∧ (IsWord s "huffman-only" ∨ (go = true ∧ IsWord s "HuffmanOnlyStrategy"))) ∨
    (f = .huffmanRLE ∧ (IsWord s "huffman-rle" ∨ (go = true ∧ IsWord s "HuffmanRLEStrategy"))) ∨
    (f = .fixed ∧ (IsWord s "fixed" ∨ (go = true ∧ IsWord s "FixedStrategy"))) := by
  have e : strategyParse go s = some f ↔ parseEnum go strategyData s = some (Strategy.num f) := by
    unfold strategyParse
    constructor
    · intro h
      obtain ⟨i, hi, hf⟩ := Option.bind_eq_some_iff.1 h
      rw [hi]
      match i, hf with
      | 0, h => cases h; rfl
      | 1, h => cases h; rfl
      | 2, h => cases h; rfl
      | 3, h => cases h; rfl
      | _ + 4, h => cases h
    · intro h; rw [h]; cases f <;> rfl
  rw [e, parseEnum_iff (strategy_distinct go)]
  have hd : strDefault = "default".toList := by decide
  cases f <;> simp [Strategy.num, strategyData, Row.answers, sameFold, IsWord, hd]

/-- C72: parsing the text of a format gives it back, in any mixture of upper and lower case -/
theorem C72_format_round_trip (go : Bool) (f : Format) {s : List Char} (h : s.map Enum.fold = (formatString f).map Enum.fold) :
    formatParse go s = some f := by
  rw [C72_format_parse]
  cases f
  · exact .inl ⟨rfl, .inl h⟩
  · exact .inr (.inl ⟨rfl, .inl h⟩)
  · exact .inr (.inr (.inl ⟨rfl, .inl h⟩))
  · exact .inr (.inr (.inr ⟨rfl, .inl h⟩))

/-- C72: the same for strategies -/
theorem C72_strategy_round_trip (go : Bool) (f : Strategy) {s : List Char} (h : s.map Enum.fold = (strategyString f).map Enum.fold) :
    strategyParse go s = some f := by
  rw [C72_strategy_parse]
  cases f
  · exact .inl ⟨rfl, .inl h⟩
  · exact .inr (.inl ⟨rfl, .inl h⟩)
  · exact .inr (.inr (.inl ⟨rfl, .inl h⟩))
  · exact .inr (.inr (.inr ⟨rfl, .inl h⟩))

/-- the tables of the package -/
def tables : List (List Row) :=
  [formatData, strategyData, blockTypeData, dataTypeData, flushTypeData, methodData, eventTypeData, osTypeData]

/-- C72: within each enumeration, two constants never have the same text, the same Go text or the same JSON; and none is empty -/
theorem C72_distinct {data : List Row} (hd : data ∈ tables) {i j : Nat} (hi : i < data.length) (hj : j < data.length)
    (h : (deref data i).name = (deref data j).name ∨ (deref data i).goName = (deref data j).goName ∨ marshal data i = marshal data j) : i = j := by
  have key : ∀ data ∈ tables, ∀ i, i < data.length → ∀ j, j < data.length →
      ((deref data i).name = (deref data j).name ∨ (deref data i).goName = (deref data j).goName ∨ marshal data i = marshal data j) → i = j := by
    decide +kernel
  exact key data hd i hi j hj h

/-! ### C73: `SizeList` as JSON -/

/-- `t` is the JSON text of an array of the unsigned numbers `l`: decimal numbers separated by commas, in brackets -/
def JsonArray (t : List Char) (l : List Nat) : Prop :=
  ∃ ws : List (List Char), (∀ w ∈ ws, IsDec w) ∧ t = '[' :: ((ws.intersperse [',']).flatten ++ [']']) ∧ l = ws.map decVal

theorem no_comma {w : List Char} (h : IsDec w) : ',' ∉ w := fun hm => absurd (h.2 _ hm).1 (by decide)

theorem split_word {w w' t t' : List Char} (h : ',' ∉ w) (h' : ',' ∉ w') (e : w ++ ',' :: t = w' ++ ',' :: t') : w = w' ∧ t = t' := by
  induction w generalizing w' with
  | nil =>
    cases w' with
    | nil => simpa using e
    | cons a l => simp at e; exact absurd (by rw [e.1]; simp) h'
  | cons a l ih =>
    cases w' with
    | nil => simp at e; exact absurd (by rw [e.1]; simp) h
    | cons b m =>
      simp only [List.cons_append, List.cons.injEq] at e
      obtain ⟨r1, r2⟩ := ih (fun hm => h (List.mem_cons_of_mem _ hm)) (fun hm => h' (List.mem_cons_of_mem _ hm)) e.2
      exact ⟨by rw [e.1, r1], r2⟩

theorem words_inj : ∀ ws ws' : List (List Char), (∀ w ∈ ws, IsDec w) → (∀ w ∈ ws', IsDec w) →
    (ws.intersperse [',']).flatten = (ws'.intersperse [',']).flatten → ws = ws'
  | [], [], _, _, _ => rfl
  | [], [a], _, h, e => absurd (by simpa using e.symm) (h a (by simp)).1
  | [], a :: b :: l, _, _, e => by simp at e
  | [a], [], h, _, e => absurd (by simpa using e) (h a (by simp)).1
  | a :: b :: l, [], _, _, e => by simp at e
  | [a], [b], _, _, e => by simpa using e
  | [a], b :: c :: l, h, _, e => by
    refine absurd ?_ (no_comma (h a (by simp)))
    simp only [List.intersperse_single, List.flatten_cons, List.flatten_nil, List.append_nil, List.intersperse_cons₂] at e
    rw [e]; simp
  | b :: c :: l, [a], _, h, e => by
    refine absurd ?_ (no_comma (h a (by simp)))
    simp only [List.intersperse_single, List.flatten_cons, List.flatten_nil, List.append_nil, List.intersperse_cons₂] at e
    rw [← e]; simp
  | a :: b :: l, a' :: b' :: l', h, h', e => by
    simp only [List.flatten_cons, List.intersperse_cons₂, List.cons_append, List.nil_append] at e
    obtain ⟨e1, e2⟩ := split_word (no_comma (h a (by simp))) (no_comma (h' a' (by simp))) e
    have := words_inj (b :: l) (b' :: l') (fun w hw => h w (List.mem_cons_of_mem _ hw)) (fun w hw => h' w (List.mem_cons_of_mem _ hw)) e2
    rw [e1, this]

/-- the array of a JSON text is determined by the text -/
theorem JsonArray.unique {t : List Char} {l l' : List Nat} (h : JsonArray t l) (h' : JsonArray t l') : l = l' := by
  obtain ⟨ws, a, b, c⟩ := h
  obtain ⟨ws', a', b', c'⟩ := h'
  have e := b.symm.trans b'
  simp only [List.cons.injEq, true_and] at e
  rw [c, c', words_inj ws ws' a a' (List.append_cancel_right e)]

theorem byte_dec : ∀ n, n < 256 → IsDec (fmtDec n) ∧ decVal (fmtDec n) = n := by
  have : ∀ n, n < 256 → (fmtDec n ≠ [] ∧ ∀ c ∈ fmtDec n, '0' ≤ c ∧ c ≤ '9') ∧ decVal (fmtDec n) = n := by decide +kernel
  exact this

theorem jsonNums_eq : ∀ l : List Nat, jsonNums l = '[' :: (((l.map fmtDec).intersperse [',']).flatten ++ [']'])
  | [] => rfl
  | [a] => by simp [jsonNums]
  | a :: b :: l => by
    have := jsonNums_eq (b :: l)
    simp only [jsonNums, List.map_cons, List.cons.injEq, true_and, List.intersperse_cons₂, List.flatten_cons, List.cons_append,
      List.append_assoc, List.flatMap_cons, List.nil_append] at this ⊢
    rw [this]

/-- C73: the JSON of a size list is the array of its numbers; so the list can be read back from it -/
theorem C73_array (l : List UInt8) : JsonArray (sizeListMarshal (some l)) (l.map (·.toNat)) := by
  refine ⟨(l.map (·.toNat)).map fmtDec, ?_, by simpa [sizeListMarshal] using jsonNums_eq (l.map (·.toNat)), ?_⟩
  · intro w hw
    obtain ⟨n, hn, rfl⟩ := List.mem_map.1 hw
    obtain ⟨b, -, rfl⟩ := List.mem_map.1 hn
    exact (byte_dec _ b.toNat_lt).1
  · rw [List.map_map]
    symm
    rw [List.map_congr_left (g := id), List.map_id]
    intro n hn
    obtain ⟨b, -, rfl⟩ := List.mem_map.1 hn
    exact (byte_dec _ b.toNat_lt).2

/-- C73: different size lists (nil included) have different JSON -/
theorem C73_injective {a b : Option (List UInt8)} (h : sizeListMarshal a = sizeListMarshal b) : a = b := by
  have hn : ∀ l : List UInt8, sizeListMarshal (some l) ≠ sizeListMarshal none := by
    intro l e
    obtain ⟨ws, -, h2, -⟩ := C73_array l
    rw [e] at h2
    simp [sizeListMarshal] at h2
  match a, b with
  | none, none => rfl
  | none, some l => exact absurd h.symm (hn l)
  | some l, none => exact absurd h (hn l)
  | some l, some m =>
    have hb := C73_array m
    rw [← h] at hb
    have e := (C73_array l).unique hb
    rw [(List.map_inj_right (fun _ _ h => UInt8.toNat_inj.1 h)).1 e]

/-- concrete cases -/
example : formatParse false "GZip".toList = some .gzip ∧ formatParse false "tar".toList = none ∧ strategyParse true "fixedstrategy".toList = some .fixed ∧
    strategyParse false "fixedstrategy".toList = none := by decide +kernel
example : sizeListMarshal (some [0, 15, 7]) = "[0,15,7]".toList ∧ sizeListMarshal (some []) = "[]".toList ∧ sizeListMarshal none = "null".toList := by decide +kernel
example : marshal osTypeData 11 = "\"OSTypeTOPS20\"".toList ∧ marshal eventTypeData 4 = "\"block-end\"".toList := by decide +kernel

end Flate.Props
