/-
C89: the log tells what happened.
-/
import Verif.Proof.JsonText
import Verif.Props.ReaderHeader
import Verif.Props.WriterEvents

namespace Flate.Props
open Flate Flate.Model Flate.Model.Text Flate.Model.Enum Flate.Model.Log Flate.Spec Flate.Proof.Js

instance (c : Char) : Decidable (Plain c) := inferInstanceAs (Decidable (_ ∧ _))

theorem get_here (k : String) (v : Json) (m : List (List Char × Json)) : (Json.obj ((k.toList, v) :: m)).get k = some v := by
  simp [Json.get]

theorem get_next {k k' : String} (h : k ≠ k') (v : Json) (m : List (List Char × Json)) :
    (Json.obj ((k.toList, v) :: m)).get k' = (Json.obj m).get k' := by
  have : k.toList ≠ k'.toList := fun e => h (String.toList_inj.1 e)
  simp [Json.get, this]

theorem member {k : String} {t : List Char} {j : Json} (hk : ∀ c ∈ k.toList, Plain c) (h : Reads t j) : ReadsM (k, t) (k.toList, j) := ⟨rfl, hk, h⟩

theorem reads_enum {data : List Row} {i : Nat} {s : String} (h : marshal data i = jsonQuote s.toList) (hp : ∀ c ∈ s.toList, Plain c) :
    Reads (marshal data i) (.text s) := by
  rw [h]
  exact reads_word hp

theorem rec_told (E : LogEnv) (r : ExtraRec) : ∃ j, Reads (jsonStruct [("ID", jsonArray [fmtDec r.id0.toNat, fmtDec r.id1.toNat]),
    ("Bytes", jsonBytes E.nilBytes r.bytes)]) j ∧ RecTold j r := by
  obtain ⟨b, hb, hv⟩ := reads_bytes E.nilBytes r.bytes
  refine ⟨_, reads_struct (.cons (member (by decide +kernel) (reads_array (.cons (reads_nat _) (.cons (reads_nat _) .nil))))
    (.cons (member (by decide +kernel) hb) .nil)) (by simp), ⟨get_here _ _ _, b, ?_, hv⟩⟩
  rw [get_next (by decide)]
  exact get_here _ _ _

theorem recs_told (E : LogEnv) : ∀ l : List ExtraRec, ∃ js, List.Forall₂ Reads (l.map fun r => jsonStruct [
    ("ID", jsonArray [fmtDec r.id0.toNat, fmtDec r.id1.toNat]), ("Bytes", jsonBytes E.nilBytes r.bytes)]) js ∧ List.Forall₂ RecTold js l
  | [] => ⟨[], .nil, .nil⟩
  | r :: l => by
    obtain ⟨j, h1, h2⟩ := rec_told E r
    obtain ⟨js, h3, h4⟩ := recs_told E l
    exact ⟨j :: js, .cons h1 h3, .cons h2 h4⟩

theorem extra_told (E : LogEnv) (l : List ExtraRec) : ∃ x r js, Reads (extraText E l) x ∧ x.get "Records" = some r ∧ r.items = some js ∧
    List.Forall₂ RecTold js l := by
  unfold extraText
  by_cases h : l = [] ∧ E.nilRecords = true
  · rw [if_pos h]
    refine ⟨_, .null, [], reads_struct (.cons (member (by decide +kernel) reads_null) .nil) (by simp), get_here _ _ _, rfl, ?_⟩
    rw [h.1]; exact .nil
  · rw [if_neg h]
    obtain ⟨js, h1, h2⟩ := recs_told E l
    exact ⟨_, .arr js, js, reads_struct (.cons (member (by decide +kernel) (reads_array h1)) .nil) (by simp), get_here _ _ _, rfl, h2⟩

/-- headers which can be logged: a known operating system, and a time which a header can contain -/
structure Loggable (h : Header) : Prop where
  os : h.osType ≤ 14
  time : ∀ t, h.lastModified = some t → 0 ≤ t ∧ t < 2 ^ 32

theorem os_name : ∀ i, i < 15 → marshal osTypeData i = jsonQuote (osNames.getD i "").toList ∧ ∀ c ∈ (osNames.getD i "").toList, Plain c := by
  decide +kernel

theorem header_told {E : LogEnv} (hz : Zoned E) {h : Header} (hl : Loggable h) : ∃ t j, headerText E h = some t ∧ Reads t j ∧ HeaderTold j h := by
  have hos := hl.os
  obtain ⟨tm, htm, hrt, hpl⟩ : ∃ tm, stampText E h.lastModified = some tm ∧
      readTime tm = some (h.lastModified.getD noTime) ∧ ∀ c ∈ tm, Plain c := by
    cases e : h.lastModified with
    | none => exact ⟨zeroTime, rfl, read_zeroTime.1, read_zeroTime.2⟩
    | some t =>
      obtain ⟨h1, h2⟩ := hl.time t e
      exact read_timeText hz (by omega) (by omega)
  obtain ⟨x, r, js, hx, hr, hi, hj⟩ := extra_told E h.extra
  unfold headerText
  have hos' : h.osType < osTypeData.length := by show h.osType < 15; omega
  rw [htm]
  simp only
  rw [if_pos hos']
  have ho := os_name h.osType (by omega)
  have hdt : Reads (marshal dataTypeData (match h.dataType with | .unknown => 0 | .binary => 1 | .text => 2)) (.text (dataName h.dataType)) := by
    cases h.dataType <;> exact reads_enum (by decide +kernel) (by decide +kernel)
  refine ⟨_, _, rfl, reads_struct
    (.cons (member (by decide +kernel) (reads_string E.html h.fileName))
    (.cons (member (by decide +kernel) (reads_string E.html h.comment))
    (.cons (member (by decide +kernel) (reads_word hpl))
    (.cons (member (by decide +kernel) hdt)
    (.cons (member (by decide +kernel) (reads_enum ho.1 ho.2))
    (.cons (member (by decide +kernel) hx)
    (.cons (member (by decide +kernel) (reads_nat h.windowBits))
    (.cons (member (by decide +kernel) (reads_int h.compressLevel)) .nil)))))))) (by simp), ?_⟩
  exact {
    name := ⟨_, get_here _ _ _, fun n hn => shown_utf8 hn⟩
    comment := ⟨_, by rw [get_next (by decide)]; exact get_here _ _ _, fun n hn => shown_utf8 hn⟩
    time := ⟨_, by rw [get_next (by decide), get_next (by decide)]; exact get_here _ _ _, hrt⟩
    data := by rw [get_next (by decide), get_next (by decide), get_next (by decide)]; exact get_here _ _ _
    os := by rw [get_next (by decide), get_next (by decide), get_next (by decide), get_next (by decide)]; exact get_here _ _ _
    extra := ⟨x, r, js, by
      rw [get_next (by decide), get_next (by decide), get_next (by decide), get_next (by decide), get_next (by decide)]; exact get_here _ _ _, hr, hi, hj⟩
    window := by
      rw [get_next (by decide), get_next (by decide), get_next (by decide), get_next (by decide), get_next (by decide), get_next (by decide)]
      exact get_here _ _ _
    level := by
      rw [get_next (by decide), get_next (by decide), get_next (by decide), get_next (by decide), get_next (by decide), get_next (by decide),
        get_next (by decide)]
      exact get_here _ _ _ }

theorem block_told (t : BlockType) (f : Bool) : ∃ j, Reads (blockText t f) j ∧ BlockTold j t f := by
  have ht : Reads (marshal blockTypeData (match t with | .invalid => 0 | .stored => 1 | .static => 2 | .dynamic => 3)) (.text (blockName t)) := by
    cases t <;> exact reads_enum (by decide +kernel) (by decide +kernel)
  refine ⟨_, reads_struct (.cons (member (by decide +kernel) ht) (.cons (member (by decide +kernel) (reads_bool f)) .nil)) (by simp), ?_⟩
  exact { type := get_here _ _ _, final := by rw [get_next (by decide)]; exact get_here _ _ _ }

theorem sizes_told (l : List Nat) : ∃ j, Reads (sizesText l) j ∧ SizesTold j l := by
  unfold sizesText
  by_cases h : l = []
  · rw [if_pos h, h]; exact ⟨.null, reads_null, rfl⟩
  · rw [if_neg h]
    refine ⟨.arr (l.map Json.nat), reads_array ?_, rfl⟩
    clear h
    induction l with
    | nil => exact .nil
    | cons a l ih => exact .cons (reads_nat a) ih

theorem trees_told (t : Trees) : ∃ j, Reads (treesText t) j ∧ TreesTold j t := by
  obtain ⟨a, ha, ha'⟩ := sizes_told t.codeSizes
  obtain ⟨b, hb, hb'⟩ := sizes_told t.ll
  obtain ⟨c, hc, hc'⟩ := sizes_told t.d
  refine ⟨_, reads_struct (.cons (member (by decide +kernel) (reads_nat _)) (.cons (member (by decide +kernel) (reads_nat _))
    (.cons (member (by decide +kernel) (reads_nat _)) (.cons (member (by decide +kernel) ha) (.cons (member (by decide +kernel) hb)
    (.cons (member (by decide +kernel) hc) .nil)))))) (by simp), ?_⟩
  exact {
    codeCount := get_here _ _ _
    llCount := by rw [get_next (by decide)]; exact get_here _ _ _
    dCount := by rw [get_next (by decide), get_next (by decide)]; exact get_here _ _ _
    codes := ⟨a, by rw [get_next (by decide), get_next (by decide), get_next (by decide)]; exact get_here _ _ _, ha'⟩
    ll := ⟨b, by rw [get_next (by decide), get_next (by decide), get_next (by decide), get_next (by decide)]; exact get_here _ _ _, hb'⟩
    d := ⟨c, by
      rw [get_next (by decide), get_next (by decide), get_next (by decide), get_next (by decide), get_next (by decide)]; exact get_here _ _ _, hc'⟩ }

theorem footer_told (a c : BitVec 32) : ∃ j, Reads (footerText a c) j ∧ FooterTold j a c := by
  refine ⟨_, reads_struct (.cons (member (by decide +kernel) (reads_checksum a)) (.cons (member (by decide +kernel) (reads_checksum c)) .nil)) (by simp), ?_⟩
  exact { adler := ⟨_, get_here _ _ _, read_checksum a⟩, crc := ⟨_, by rw [get_next (by decide)]; exact get_here _ _ _, read_checksum c⟩ }

/-- **C89 (every entry can be read).** The entry of an event, as long as its header (if it has one) is loggable, is written without an error; it is a JSON text, and
what it says is the event: its type, its counters, its format, the header, the block, the code lengths, the checksums. -/
theorem C89_entry {E : LogEnv} (hz : Zoned E) {e : Event} (hl : ∀ h, e.kind = .streamHeader h → Loggable h) :
    ∃ t j, eventText E e = some t ∧ readJson t = some j ∧ EventTold j e := by
  obtain ⟨hd, bl, tr, fo, jh, jb, jt, jf, hp, h1, h2, h3, h4, hk⟩ : ∃ hd bl tr fo jh jb jt jf, partsText E e.kind = some (hd, bl, tr, fo) ∧
      Reads hd jh ∧ Reads bl jb ∧ Reads tr jt ∧ Reads fo jf ∧ KindTold jh jb jt jf e.kind := by
    cases hk : e.kind with
    | streamBegin => exact ⟨_, _, _, _, _, _, _, _, rfl, reads_null, reads_null, reads_null, reads_null, rfl, rfl, rfl, rfl⟩
    | streamClose => exact ⟨_, _, _, _, _, _, _, _, rfl, reads_null, reads_null, reads_null, reads_null, rfl, rfl, rfl, rfl⟩
    | streamHeader h =>
      obtain ⟨t, j, e1, e2, e3⟩ := header_told hz (hl h hk)
      exact ⟨t, _, _, _, j, _, _, _, by simp [partsText, e1], e2, reads_null, reads_null, reads_null, e3, rfl, rfl, rfl⟩
    | blockBegin t f =>
      obtain ⟨j, e2, e3⟩ := block_told t f
      exact ⟨_, _, _, _, _, j, _, _, rfl, reads_null, e2, reads_null, reads_null, rfl, e3, rfl, rfl⟩
    | blockEnd t f =>
      obtain ⟨j, e2, e3⟩ := block_told t f
      exact ⟨_, _, _, _, _, j, _, _, rfl, reads_null, e2, reads_null, reads_null, rfl, e3, rfl, rfl⟩
    | blockTrees t f x =>
      obtain ⟨j, e2, e3⟩ := block_told t f
      obtain ⟨j', e4, e5⟩ := trees_told x
      exact ⟨_, _, _, _, _, j, j', _, rfl, reads_null, e2, e4, reads_null, rfl, e3, e5, rfl⟩
    | streamEnd a c =>
      obtain ⟨j, e2, e3⟩ := footer_told a c
      exact ⟨_, _, _, _, _, _, _, j, rfl, reads_null, reads_null, reads_null, e2, rfl, rfl, rfl, e3⟩
  have ht : Reads (marshal eventTypeData (eventNum e.kind)) (.text (typeName e.kind)) := by
    cases e.kind with
    | streamBegin => exact reads_enum (i := 0) (s := "stream-begin") (by decide +kernel) (by decide +kernel)
    | streamHeader h => exact reads_enum (i := 1) (s := "stream-header") (by decide +kernel) (by decide +kernel)
    | blockBegin t f => exact reads_enum (i := 2) (s := "block-begin") (by decide +kernel) (by decide +kernel)
    | blockTrees t f x => exact reads_enum (i := 3) (s := "block-trees") (by decide +kernel) (by decide +kernel)
    | blockEnd t f => exact reads_enum (i := 4) (s := "block-end") (by decide +kernel) (by decide +kernel)
    | streamEnd a c => exact reads_enum (i := 5) (s := "stream-end") (by decide +kernel) (by decide +kernel)
    | streamClose => exact reads_enum (i := 6) (s := "stream-close") (by decide +kernel) (by decide +kernel)
  have hf : Reads (marshal formatData (Format.num e.format)) (.text (formatName e.format)) := by
    cases e.format <;> exact reads_enum (by decide +kernel) (by decide +kernel)
  unfold eventText
  rw [hp]
  refine ⟨_, _, rfl, reads_json (reads_struct
    (.cons (member (by decide +kernel) ht)
    (.cons (member (by decide +kernel) (reads_nat _))
    (.cons (member (by decide +kernel) (reads_nat _))
    (.cons (member (by decide +kernel) (reads_nat _))
    (.cons (member (by decide +kernel) (reads_nat _))
    (.cons (member (by decide +kernel) (reads_nat _))
    (.cons (member (by decide +kernel) hf)
    (.cons (member (by decide +kernel) h1)
    (.cons (member (by decide +kernel) h2)
    (.cons (member (by decide +kernel) h3)
    (.cons (member (by decide +kernel) h4) .nil))))))))))) (by simp)), ?_⟩
  have nx : ∀ {k k' : String}, k ≠ k' → ∀ {v : Json} {m : List (List Char × Json)} {x : Option Json}, (Json.obj m).get k' = x →
      (Json.obj ((k.toList, v) :: m)).get k' = x := fun h _ _ _ e => (get_next h _ _).trans e
  exact {
    type := get_here _ _ _
    inTotal := nx (by decide) (get_here _ _ _)
    inStream := nx (by decide) (nx (by decide) (get_here _ _ _))
    outTotal := nx (by decide) (nx (by decide) (nx (by decide) (get_here _ _ _)))
    outStream := nx (by decide) (nx (by decide) (nx (by decide) (nx (by decide) (get_here _ _ _))))
    streams := nx (by decide) (nx (by decide) (nx (by decide) (nx (by decide) (nx (by decide) (get_here _ _ _)))))
    format := nx (by decide) (nx (by decide) (nx (by decide) (nx (by decide) (nx (by decide) (nx (by decide) (get_here _ _ _))))))
    rest := ⟨jh, jb, jt, jf,
      nx (by decide) (nx (by decide) (nx (by decide) (nx (by decide) (nx (by decide) (nx (by decide) (nx (by decide) (get_here _ _ _))))))),
      nx (by decide) (nx (by decide) (nx (by decide) (nx (by decide) (nx (by decide) (nx (by decide) (nx (by decide) (nx (by decide) (get_here _ _ _)))))))),
      nx (by decide) (nx (by decide) (nx (by decide) (nx (by decide) (nx (by decide) (nx (by decide) (nx (by decide) (nx (by decide) (nx (by decide)
        (get_here _ _ _))))))))),
      nx (by decide) (nx (by decide) (nx (by decide) (nx (by decide) (nx (by decide) (nx (by decide) (nx (by decide) (nx (by decide) (nx (by decide)
        (nx (by decide) (get_here _ _ _)))))))))), hk⟩ }

/-! ### an entry belongs to one event only -/

theorem text_inj {a b : String} (h : Json.text a = Json.text b) : a = b := by
  injection h with h
  exact String.toList_inj.1 h

theorem nat_inj {a b : Nat} (h : Json.nat a = Json.nat b) : a = b := by
  injection h with h
  exact Int.ofNat.inj h

theorem same {α : Type} {o : Option α} {a b : α} (h : o = some a) (h' : o = some b) : a = b := Option.some.inj (h.symm.trans h')

/-- names which are in UTF-8 -/
structure Named (h : Header) : Prop where
  name : ∃ n, IsUtf8 h.fileName n
  comment : ∃ n, IsUtf8 h.comment n

theorem rec_unique {j : Json} {a b : ExtraRec} (h : RecTold j a) (h' : RecTold j b) : a = b := by
  have e := same h.id h'.id
  injection e with e
  injection e with e1 e2
  injection e2 with e2
  obtain ⟨x, hx, vx⟩ := h.bytes
  obtain ⟨y, hy, vy⟩ := h'.bytes
  cases same hx hy
  have e3 := same vx vy
  cases a
  cases b
  simp only [ExtraRec.mk.injEq]
  exact ⟨UInt8.toNat_inj.1 (nat_inj e1), UInt8.toNat_inj.1 (nat_inj e2), e3⟩

theorem recs_unique : ∀ {js : List Json} {a b : List ExtraRec}, List.Forall₂ RecTold js a → List.Forall₂ RecTold js b → a = b
  | _, _, _, .nil, .nil => rfl
  | _, _, _, .cons h hs, .cons h' hs' => by rw [rec_unique h h', recs_unique hs hs']

theorem header_unique {j : Json} {a b : Header} (h : HeaderTold j a) (h' : HeaderTold j b) (la : Loggable a) (lb : Loggable b) (na : Named a) (nb : Named b) :
    a = b := by
  have e1 : a.fileName = b.fileName := by
    obtain ⟨s, h1, h2⟩ := h.name
    obtain ⟨s', h3, h4⟩ := h'.name
    obtain ⟨n, hn⟩ := na.name
    obtain ⟨n', hn'⟩ := nb.name
    have e : s = s' := by have := same h1 h3; injection this
    have e' : n = n' := by rw [← h2 n hn, ← h4 n' hn', e]
    rw [hn, hn', e']
  have e2 : a.comment = b.comment := by
    obtain ⟨s, h1, h2⟩ := h.comment
    obtain ⟨s', h3, h4⟩ := h'.comment
    obtain ⟨n, hn⟩ := na.comment
    obtain ⟨n', hn'⟩ := nb.comment
    have e : s = s' := by have := same h1 h3; injection this
    have e' : n = n' := by rw [← h2 n hn, ← h4 n' hn', e]
    rw [hn, hn', e']
  have e3 : a.lastModified = b.lastModified := by
    obtain ⟨s, h1, h2⟩ := h.time
    obtain ⟨s', h3, h4⟩ := h'.time
    have e : s = s' := by have := same h1 h3; injection this
    subst e
    have e := same h2 h4
    cases ea : a.lastModified with
    | none => cases eb : b.lastModified with
      | none => rfl
      | some t => rw [ea, eb] at e; have := lb.time t eb; unfold noTime at e; simp at e; omega
    | some t => cases eb : b.lastModified with
      | none => rw [ea, eb] at e; have := la.time t ea; unfold noTime at e; simp at e; omega
      | some t' => rw [ea, eb] at e; simp at e; rw [e]
  have e4 : a.dataType = b.dataType := by
    have e := text_inj (same h.data h'.data)
    generalize a.dataType = x at *
    generalize b.dataType = y at *
    revert e
    cases x <;> cases y <;> simp [dataName]
  have e5 : a.osType = b.osType := by
    have e := text_inj (same h.os h'.os)
    have key : ∀ i, i < 15 → ∀ k, k < 15 → osNames.getD i "" = osNames.getD k "" → i = k := by decide +kernel
    have := la.os
    have := lb.os
    exact key _ (by omega) _ (by omega) e
  have e6 : a.extra = b.extra := by
    obtain ⟨x, r, l, h1, h2, h3, h4⟩ := h.extra
    obtain ⟨x', r', l', k1, k2, k3, k4⟩ := h'.extra
    cases same h1 k1
    cases same h2 k2
    cases same h3 k3
    exact recs_unique h4 k4
  have e7 : a.windowBits = b.windowBits := nat_inj (same h.window h'.window)
  have e8 : a.compressLevel = b.compressLevel := by have e := same h.level h'.level; injection e
  cases a
  cases b
  simp only [Header.mk.injEq]
  exact ⟨e1, e2, e3, e4, e5, e6, e7, e8⟩

theorem block_unique {j : Json} {t t' : BlockType} {f f' : Bool} (h : BlockTold j t f) (h' : BlockTold j t' f') : t = t' ∧ f = f' := by
  have e := text_inj (same h.type h'.type)
  have e' := same h.final h'.final
  refine ⟨?_, by injection e'⟩
  revert e
  cases t <;> cases t' <;> simp [blockName]

theorem sizes_unique {j : Json} {l l' : List Nat} (h : SizesTold j l) (h' : SizesTold j l') : l = l' := by
  have e := same h h'
  clear h h'
  induction l generalizing l' with
  | nil => cases l' with
    | nil => rfl
    | cons b l' => cases e
  | cons a l ih => cases l' with
    | nil => cases e
    | cons b l' =>
      rw [List.map_cons, List.map_cons] at e
      injection e with e1 e2
      rw [nat_inj e1, ih e2]

theorem trees_unique {j : Json} {t t' : Trees} (h : TreesTold j t) (h' : TreesTold j t') : t = t' := by
  obtain ⟨x, h1, h2⟩ := h.codes
  obtain ⟨x', k1, k2⟩ := h'.codes
  cases same h1 k1
  obtain ⟨y, h3, h4⟩ := h.ll
  obtain ⟨y', k3, k4⟩ := h'.ll
  cases same h3 k3
  obtain ⟨z, h5, h6⟩ := h.d
  obtain ⟨z', k5, k6⟩ := h'.d
  cases same h5 k5
  have e1 := nat_inj (same h.codeCount h'.codeCount)
  have e2 := nat_inj (same h.llCount h'.llCount)
  have e3 := nat_inj (same h.dCount h'.dCount)
  have e4 := sizes_unique h2 k2
  have e5 := sizes_unique h4 k4
  have e6 := sizes_unique h6 k6
  cases t
  cases t'
  simp only [Trees.mk.injEq]
  exact ⟨e1, e2, e3, e4, e5, e6⟩

theorem footer_unique {j : Json} {a a' c c' : BitVec 32} (h : FooterTold j a c) (h' : FooterTold j a' c') : a = a' ∧ c = c' := by
  obtain ⟨x, h1, h2⟩ := h.adler
  obtain ⟨x', k1, k2⟩ := h'.adler
  have e : x = x' := by have := same h1 k1; injection this
  subst e
  obtain ⟨y, h3, h4⟩ := h.crc
  obtain ⟨y', k3, k4⟩ := h'.crc
  have e : y = y' := by have := same h3 k3; injection this
  subst e
  exact ⟨BitVec.eq_of_toNat_eq (same h2 k2), BitVec.eq_of_toNat_eq (same h4 k4)⟩

theorem told_unique {j : Json} {e e' : Event} (h : EventTold j e) (h' : EventTold j e') (l : ∀ x, e.kind = .streamHeader x → Loggable x ∧ Named x)
    (l' : ∀ x, e'.kind = .streamHeader x → Loggable x ∧ Named x) : e = e' := by
  have e1 := nat_inj (same h.inTotal h'.inTotal)
  have e2 := nat_inj (same h.inStream h'.inStream)
  have e3 := nat_inj (same h.outTotal h'.outTotal)
  have e4 := nat_inj (same h.outStream h'.outStream)
  have e5 := nat_inj (same h.streams h'.streams)
  have e6 : e.format = e'.format := by
    have e := text_inj (same h.format h'.format)
    revert e
    generalize Event.format _ = x
    generalize Event.format _ = y
    cases x <;> cases y <;> simp [formatName]
  have e7 : e.kind = e'.kind := by
    have et := text_inj (same h.type h'.type)
    obtain ⟨hd, bl, tr, fo, h1, h2, h3, h4, h5⟩ := h.rest
    obtain ⟨hd', bl', tr', fo', k1, k2, k3, k4, k5⟩ := h'.rest
    cases same h1 k1
    cases same h2 k2
    cases same h3 k3
    cases same h4 k4
    generalize e.kind = x at *
    generalize e'.kind = y at *
    cases x <;> cases y <;> first
      | rfl
      | (exfalso; revert et; simp [typeName]; done)
      | skip
    · obtain ⟨l1, n1⟩ := l _ rfl
      obtain ⟨l2, n2⟩ := l' _ rfl
      rw [header_unique h5.1 k5.1 l1 l2 n1 n2]
    · obtain ⟨r1, r2⟩ := block_unique h5.2.1 k5.2.1
      rw [r1, r2]
    · obtain ⟨r1, r2⟩ := block_unique h5.2.1 k5.2.1
      rw [r1, r2, trees_unique h5.2.2.1 k5.2.2.1]
    · obtain ⟨r1, r2⟩ := block_unique h5.2.1 k5.2.1
      rw [r1, r2]
    · obtain ⟨r1, r2⟩ := footer_unique h5.2.2.2 k5.2.2.2
      rw [r1, r2]
  cases e
  cases e'
  simp only [Event.mk.injEq]
  exact ⟨e7, e1, e2, e3, e4, e5, e6⟩

/-- **C89 (entries are distinct).** Two events with the same entry are the same event, if their names and comments are in UTF-8. -/
theorem C89_distinct {E : LogEnv} (hz : Zoned E) {e e' : Event} (l : ∀ x, e.kind = .streamHeader x → Loggable x ∧ Named x)
    (l' : ∀ x, e'.kind = .streamHeader x → Loggable x ∧ Named x) (h : eventText E e = eventText E e') : e = e' := by
  obtain ⟨t, j, h1, h2, h3⟩ := C89_entry hz fun x hx => (l x hx).1
  obtain ⟨t', j', k1, k2, k3⟩ := C89_entry hz fun x hx => (l' x hx).1
  have et : t = t' := same h1 (h.trans k1)
  subst et
  cases same h2 k2
  exact told_unique h3 k3 l l'

/-! ### the events of Readers and Writers -/

theorem says_loggable {k : Container} {hdr : List UInt8} {h : Header} (hs : HeaderSays k hdr h) : Loggable h := by
  cases k with
  | raw => rw [show h = _ from hs]; exact ⟨by decide, fun t e => by cases e⟩
  | zlib =>
    obtain ⟨cmf, flg, rest, _, rfl⟩ := hs
    exact ⟨Nat.zero_le _, fun t e => by cases e⟩
  | gzip =>
    obtain ⟨g, hv, _, hg⟩ := hs
    refine ⟨?_, fun t e => ?_⟩
    · rw [hg.os]; split <;> omega
    · rw [hg.mtime] at e
      have := hv.1
      split at e
      · cases e
      · cases e; omega

/-- **C89 (Readers).** Whatever a Reader reads, however it ends: every one of its events is logged, in order; each entry is a JSON text which tells the event. -/
theorem C89_reader {c : RSetup} (h : c.OK) {src : Rd.Src} {stop : Nat → Option Nat} {closed : Bool} {s : Rd.RState}
    (hr : Rd.readThread (c.envStop stop) (Rd.start src closed) = .ok ((), s)) {E : LogEnv} (hz : Zoned E) :
    List.Forall₂ (fun o e => ∃ t j, o = some t ∧ readJson t = some j ∧ EventTold j e) (logTracer E s.events) s.events := by
  have key : ∀ l : List Event, (∀ e ∈ l, e ∈ s.events) →
      List.Forall₂ (fun o e => ∃ t j, o = some t ∧ readJson t = some j ∧ EventTold j e) (logTracer E l) l := by
    intro l
    induction l with
    | nil => intro _; exact .nil
    | cons e l ih =>
      intro hm
      refine .cons ?_ (ih fun x hx => hm x (List.mem_cons_of_mem _ hx))
      refine C89_entry hz fun hd hk => ?_
      obtain ⟨_, _, k, _, _, _, hs⟩ := C59_header h hr (hm e (by simp)) hk
      exact says_loggable hs
  exact key _ fun _ h => h

/-- **C89 (Writers).** Whatever is done with a Writer and whatever goes wrong: every one of its events is logged, in order; each entry is a JSON text which tells the
event. -/
theorem C89_writer {c : Setup} (h : c.OK) {ops : List WOp} {rs : List WRes} {t : WState} (hr : c.Runs ops rs t) {E : LogEnv} (hz : Zoned E) :
    List.Forall₂ (fun o e => ∃ t j, o = some t ∧ readJson t = some j ∧ EventTold j e) (logTracer E (t.events.map (·.ev))) (t.events.map (·.ev)) := by
  have key : ∀ l : List Event, (∀ e ∈ l, e ∈ t.events.map (·.ev)) →
      List.Forall₂ (fun o e => ∃ t j, o = some t ∧ readJson t = some j ∧ EventTold j e) (logTracer E l) l := by
    intro l
    induction l with
    | nil => intro _; exact .nil
    | cons e l ih =>
      intro hm
      refine .cons ?_ (ih fun x hx => hm x (List.mem_cons_of_mem _ hx))
      refine C89_entry hz fun hd hk => ?_
      obtain ⟨p, hp, rfl⟩ := List.mem_map.1 (hm e (by simp))
      obtain ⟨ho, _⟩ := C53_header h hr hp hk
      exact ⟨ho.os, fun t e => by have := ho.time t e; omega⟩
  exact key _ fun _ h => h

/-- a name which is not in UTF-8 is not told exactly: that is why C89_distinct needs its hypothesis -/
theorem C89_utf8 : jsonString true [0x80] = jsonString true [0x81] := by decide +kernel

/-- a header which can be logged, and whose names are in UTF-8 -/
example : Loggable { fileName := [0x41, 0xe2, 0x82, 0xac], lastModified := some 1709251199, osType := 4 } ∧
    Named { fileName := [0x41, 0xe2, 0x82, 0xac], lastModified := some 1709251199, osType := 4 } :=
  ⟨⟨by decide, fun t e => by cases e; decide⟩, ⟨⟨['A', '€'], by unfold IsUtf8; decide +kernel⟩, ⟨[], rfl⟩⟩⟩

/-- time zones as there are -/
example : Zoned { zone := fun t => if t < 1000 then 330 else -300 } := fun t => by
  show -1440 < (if t < 1000 then (330 : Int) else -300) ∧ (if t < 1000 then (330 : Int) else -300) < 1440
  split <;> omega

end Flate.Props
