/-
Options, Writers and Readers own the arrays they refer to (for C78).
-/
import Verif.Model.Share
import Mathlib.Data.List.Forall2
import Mathlib.Data.List.Nodup

namespace Flate.Proof.Share
open Flate.Model Flate.Model.Share
open Flate.Spec.Snap (Query Act Seen World last)

/-! ### the last option of a kind -/

def upd {α β : Type} (f : β → Option α) (x : α) (os : List β) : α := os.foldl (fun x o => (f o).getD x) x

theorem getLast?_getD_cons {α : Type} (a : α) (l : List α) (d : α) : (a :: l).getLast?.getD d = l.getLast?.getD a := by
  cases l with
  | nil => rfl
  | cons b l => rw [List.getLast?_cons_cons]; simp [List.getLast?_cons]

theorem last_eq {α : Type} (f : Opt → Option α) (d : α) (os : List Opt) : last f d os = upd f d os := by
  induction os generalizing d with
  | nil => rfl
  | cons o os ih =>
    show ((List.filterMap f (o :: os)).getLast?).getD d = upd f ((f o).getD d) os
    rw [← ih]
    cases h : f o with
    | none => simp [last, h]
    | some a => simp only [List.filterMap_cons, h, last, Option.getD_some]; exact getLast?_getD_cons _ _ _

theorem upd_append {α β : Type} (f : β → Option α) (x : α) (a b : List β) : upd f x (a ++ b) = upd f (upd f x a) b := List.foldl_append

theorem upd_const {α β : Type} (f : β → Option α) (os : List β) : (∀ x, upd f x os = x) ∨ ∃ c, ∀ x, upd f x os = c := by
  induction os with
  | nil => exact .inl fun _ => rfl
  | cons o os ih =>
    cases h : f o with
    | none =>
      rcases ih with ih | ⟨c, ih⟩
      · exact .inl fun x => by show upd f ((f o).getD x) os = x; rw [h]; exact ih x
      · exact .inr ⟨c, fun x => by show upd f ((f o).getD x) os = c; rw [h]; exact ih _⟩
    | some a => exact .inr ⟨upd f a os, fun x => by show upd f ((f o).getD x) os = _; rw [h]; rfl⟩

/-- filling in a default before or only after the last options -/
theorem upd_fill {α β : Type} (f : β → Option α) (g : α → α) (hg : ∀ x, g (g x) = g x) (x : α) (os : List β) : g (upd f (g x) os) = g (upd f x os) := by
  rcases upd_const f os with h | ⟨c, h⟩
  · rw [h, h, hg]
  · rw [h, h]

/-! ### relation of the two machines -/

abbrev B (s : St) (r : Nat) : List UInt8 := s.heapB.getD r []
abbrev T (s : St) (r : Nat) : List Nat := s.heapT.getD r []

/-- an array the program has no reference to -/
def PrivB (s : St) (r : Nat) : Prop := r < s.heapB.length ∧ r ∉ s.bytes
def PrivT (s : St) (r : Nat) : Prop := r < s.heapT.length ∧ r ∉ s.tracers

inductive OkD (s : St) : Option Nat → Option (List UInt8) → Prop where
  | nil : OkD s none none
  | ref {r : Nat} (h : PrivB s r) (h0 : B s r ≠ []) : OkD s (some r) (some (B s r))

inductive OkT (s : St) : Option Nat → List Nat → Prop where
  | nil : OkT s none []
  | ref {r : Nat} (h : PrivT s r) : OkT s (some r) (T s r)

inductive OkOpt (s : St) : OptV → Opt → Prop where
  | format (f) : OkOpt s (.format f) (.format f)
  | method (f) : OkOpt s (.method f) (.method f)
  | strategy (f) : OkOpt s (.strategy f) (.strategy f)
  | clevel (f) : OkOpt s (.clevel f) (.clevel f)
  | mlevel (f) : OkOpt s (.mlevel f) (.mlevel f)
  | wbits (f) : OkOpt s (.wbits f) (.wbits f)
  | dict {a b} (h : OkD s a b) : OkOpt s (.dict a) (.dict b)
  | tracers {a b} (h : OkT s a b) : OkOpt s (.tracers a) (.tracers b)

/-- the fields, and the options they are made of, before defaults are filled in -/
structure OkF (s : St) (f : Fields) (o : Options) : Prop where
  format : f.format = o.format
  method : f.method = o.method
  strategy : f.strategy = o.strategy
  clevel : f.clevel = o.clevel
  mlevel : f.mlevel = o.mlevel
  wbits : f.wbits = o.wbits
  dict : OkD s f.dict o.dict
  tracers : OkT s f.tracers o.tracers

theorem OkF.init (s : St) : OkF s {} {} := ⟨rfl, rfl, rfl, rfl, rfl, rfl, .nil, .nil⟩

theorem OkF.step {s : St} {f : Fields} {o : Options} (h : OkF s f o) {v : OptV} {x : Opt} (hx : OkOpt s v x) : OkF s (v.apply f) (x.apply o) := by
  obtain ⟨h1, h2, h3, h4, h5, h6, h7, h8⟩ := h
  cases hx <;> refine ⟨?_, ?_, ?_, ?_, ?_, ?_, ?_, ?_⟩ <;> first | assumption | rfl

theorem OkF.apply {s : St} {f : Fields} {o : Options} (h : OkF s f o) {vs : List OptV} {xs : List Opt} (hx : List.Forall₂ (OkOpt s) vs xs) :
    OkF s (f.apply vs) (o.apply xs) := by
  induction hx generalizing f o with
  | nil => exact h
  | cons h1 _ ih => exact ih (h.step h1)

/-- the options of a Writer or Reader, after filling in defaults -/
def eff (x : Spec.Snap.Obj) : Options :=
  if x.writer then { format := Spec.Snap.fmt x, method := last (fun | .method m => some m | _ => none) .default x.given,
                     strategy := last (fun | .strategy s => some s | _ => none) .default x.given, clevel := Spec.Snap.level x,
                     mlevel := Spec.Snap.memory x, wbits := Spec.Snap.window x, dict := Spec.Snap.dictOf x, tracers := Spec.Snap.tracersOf x }
  else { format := Spec.Snap.fmt x, mlevel := Spec.Snap.memory x, wbits := Spec.Snap.window x, dict := Spec.Snap.dictOf x, tracers := Spec.Snap.tracersOf x }

structure OkObj (s : St) (o : Obj) (x : Spec.Snap.Obj) : Prop where
  writer : o.writer = x.writer
  under : o.under = x.under
  f : OkF s o.f (eff x)

/-! what an option does to each field -/

def fF : Opt → Option Format | .format f => some f | _ => none
def fM : Opt → Option Method | .method f => some f | _ => none
def fS : Opt → Option Strategy | .strategy f => some f | _ => none
def fC : Opt → Option Int | .clevel f => some f | _ => none
def fL : Opt → Option Nat | .mlevel f => some f | _ => none
def fW : Opt → Option Nat | .wbits f => some f | _ => none
def fD : Opt → Option (Option (List UInt8)) | .dict f => some f | _ => none
def fT : Opt → Option (List Nat) | .tracers f => some f | _ => none

theorem apply_eq (o : Options) (xs : List Opt) : o.apply xs =
    { format := upd fF o.format xs, method := upd fM o.method xs, strategy := upd fS o.strategy xs, clevel := upd fC o.clevel xs,
      mlevel := upd fL o.mlevel xs, wbits := upd fW o.wbits xs, dict := upd fD o.dict xs, tracers := upd fT o.tracers xs } := by
  induction xs generalizing o with
  | nil => rfl
  | cons x xs ih =>
    show Options.apply (x.apply o) xs = _
    rw [ih]
    cases x <;> rfl

def gF (f : Format) : Format := if f = .default then .zlib else f
def gC (c : Int) : Int := if c = -1 then 6 else c
def gL (m : Nat) : Nat := if m = 0 then 9 else m
def gW (m : Nat) : Nat := if m = 0 then 15 else m

theorem gF_idem (f : Format) : gF (gF f) = gF f := by cases f <;> rfl
theorem gC_idem (c : Int) : gC (gC c) = gC c := by simp only [gC]; split <;> simp_all
theorem gL_idem (c : Nat) : gL (gL c) = gL c := by simp only [gL]; split <;> simp_all
theorem gW_idem (c : Nat) : gW (gW c) = gW c := by simp only [gW]; split <;> simp_all

theorem fmt_writer (os : List Opt) (u : Nat) : Spec.Snap.fmt ⟨true, os, u⟩ = gF (upd fF .default os) := by
  have h : Spec.Snap.fmt ⟨true, os, u⟩ = match last fF .default os with | .default => .zlib | f => f := by
    simp only [Spec.Snap.fmt]; rfl
  rw [h, last_eq]
  cases upd fF .default os <;> rfl
theorem fmt_reader (os : List Opt) (u : Nat) : Spec.Snap.fmt ⟨false, os, u⟩ = upd fF .default os := by
  have h : Spec.Snap.fmt ⟨false, os, u⟩ = match last fF .default os with | .default => .default | f => f := by
    simp only [Spec.Snap.fmt]; rfl
  rw [h, last_eq]
  cases upd fF .default os <;> rfl
theorem level_eq (b : Bool) (os : List Opt) (u : Nat) : Spec.Snap.level ⟨b, os, u⟩ = gC (upd fC (-1) os) := by
  have h : Spec.Snap.level ⟨b, os, u⟩ = match last fC (-1) os with | -1 => 6 | f => f := by
    simp only [Spec.Snap.level]; rfl
  rw [h, last_eq]
  simp only [gC]
  split
  · rename_i h; rw [h]; rfl
  · rename_i h; rw [if_neg h]
theorem memory_eq (b : Bool) (os : List Opt) (u : Nat) : Spec.Snap.memory ⟨b, os, u⟩ = gL (upd fL 0 os) := by
  have h : Spec.Snap.memory ⟨b, os, u⟩ = match last fL 0 os with | 0 => 9 | f => f := by
    simp only [Spec.Snap.memory]; rfl
  rw [h, last_eq]
  cases upd fL 0 os <;> rfl
theorem window_eq (b : Bool) (os : List Opt) (u : Nat) : Spec.Snap.window ⟨b, os, u⟩ = gW (upd fW 0 os) := by
  have h : Spec.Snap.window ⟨b, os, u⟩ = match last fW 0 os with | 0 => 15 | f => f := by
    simp only [Spec.Snap.window]; rfl
  rw [h, last_eq]
  cases upd fW 0 os <;> rfl

/-- NewWriter's fields -/
theorem eff_writer (os : List Opt) (u : Nat) : eff ⟨true, os, u⟩ =
    { format := gF (upd fF .default os), method := upd fM .default os, strategy := upd fS .default os, clevel := gC (upd fC (-1) os),
      mlevel := gL (upd fL 0 os), wbits := gW (upd fW 0 os), dict := upd fD none os, tracers := upd fT [] os } := by
  simp only [eff, if_true, fmt_writer, level_eq, memory_eq, window_eq, Spec.Snap.dictOf, Spec.Snap.tracersOf, last_eq]
  rfl

theorem eff_reader (os : List Opt) (u : Nat) : eff ⟨false, os, u⟩ =
    { format := upd fF .default os, mlevel := gL (upd fL 0 os), wbits := gW (upd fW 0 os), dict := upd fD none os, tracers := upd fT [] os } := by
  simp only [eff, fmt_reader, memory_eq, window_eq, Spec.Snap.dictOf, Spec.Snap.tracersOf, last_eq]
  rfl

theorem OkF.writerDefaults {s : St} {f : Fields} {o : Options} (h : OkF s f o) :
    OkF s f.writerDefaults { o with format := gF o.format, clevel := gC o.clevel, mlevel := gL o.mlevel, wbits := gW o.wbits } := by
  obtain ⟨h1, h2, h3, h4, h5, h6, h7, h8⟩ := h
  refine ⟨?_, h2, h3, ?_, ?_, ?_, h7, h8⟩
  · show (if f.format = .default then .zlib else f.format) = _; rw [h1]; rfl
  · show (if f.clevel = -1 then 6 else f.clevel) = _; rw [h4]; rfl
  · show (if f.mlevel = 0 then 9 else f.mlevel) = _; rw [h5]; rfl
  · show (if f.wbits = 0 then 15 else f.wbits) = _; rw [h6]; rfl

theorem OkF.readerDefaults {s : St} {f : Fields} {o : Options} (h : OkF s f o) :
    OkF s f.readerDefaults { o with mlevel := gL o.mlevel, wbits := gW o.wbits } := by
  obtain ⟨h1, h2, h3, h4, h5, h6, h7, h8⟩ := h
  refine ⟨h1, h2, h3, h4, ?_, ?_, h7, h8⟩
  · show (if f.mlevel = 0 then 9 else f.mlevel) = _; rw [h5]; rfl
  · show (if f.wbits = 0 then 15 else f.wbits) = _; rw [h6]; rfl

theorem OkF.strip {s : St} {f : Fields} {o : Options} (h : OkF s f o) :
    OkF s { format := f.format, mlevel := f.mlevel, wbits := f.wbits, dict := f.dict, tracers := f.tracers }
      { format := o.format, mlevel := o.mlevel, wbits := o.wbits, dict := o.dict, tracers := o.tracers } :=
  ⟨h.format, rfl, rfl, rfl, h.mlevel, h.wbits, h.dict, h.tracers⟩

theorem newWriter_ok {s : St} {vs : List OptV} {xs : List Opt} (hx : List.Forall₂ (OkOpt s) vs xs) (u : Nat) : OkObj s (newWriter u vs) ⟨true, xs, u⟩ := by
  refine ⟨rfl, rfl, ?_⟩
  have := (OkF.apply (OkF.init s) hx).writerDefaults
  rw [apply_eq] at this
  rw [eff_writer]
  exact this

theorem newReader_ok {s : St} {vs : List OptV} {xs : List Opt} (hx : List.Forall₂ (OkOpt s) vs xs) (u : Nat) : OkObj s (newReader u vs) ⟨false, xs, u⟩ := by
  refine ⟨rfl, rfl, ?_⟩
  have := (OkF.apply (OkF.init s) hx).readerDefaults.strip
  rw [apply_eq] at this
  rw [eff_reader]
  exact this

theorem reset_ok {s : St} {o : Obj} {x : Spec.Snap.Obj} (h : OkObj s o x) {vs : List OptV} {xs : List Opt} (hx : List.Forall₂ (OkOpt s) vs xs) (u : Nat) :
    OkObj s (o.reset u vs) { x with given := x.given ++ xs, under := u } := by
  obtain ⟨xw, os, xu⟩ := x
  obtain ⟨ow, f, ou⟩ := o
  obtain ⟨h1, h2, h3⟩ := h
  obtain rfl : ow = xw := h1
  by_cases h0 : vs.length = 0
  · obtain rfl := List.eq_nil_of_length_eq_zero h0
    cases hx
    have : Obj.reset ⟨ow, f, ou⟩ u [] = ⟨ow, f, u⟩ := by simp [Obj.reset]
    rw [this]
    refine ⟨rfl, rfl, ?_⟩
    rw [List.append_nil]
    cases ow
    · rw [eff_reader] at h3 ⊢; exact h3
    · rw [eff_writer] at h3 ⊢; exact h3
  · cases ow
    · simp only [Obj.reset, if_neg h0]
      refine ⟨rfl, rfl, ?_⟩
      rw [eff_reader] at h3 ⊢
      have := (OkF.apply h3.strip hx).readerDefaults.strip
      rw [apply_eq] at this
      simp only [upd_append]
      dsimp only at this
      rw [upd_fill fL gL gL_idem, upd_fill fW gW gW_idem] at this
      exact this
    · simp only [Obj.reset, if_neg h0]
      refine ⟨rfl, rfl, ?_⟩
      rw [eff_writer] at h3 ⊢
      have := (OkF.apply h3 hx).writerDefaults
      rw [apply_eq] at this
      simp only [upd_append]
      dsimp only at this
      rw [upd_fill fL gL gL_idem, upd_fill fW gW gW_idem, upd_fill fF gF gF_idem, upd_fill fC gC gC_idem] at this
      exact this

/-! ### frames -/

/-- what options and objects refer to is kept -/
structure Frame (s t : St) : Prop where
  b : ∀ r, PrivB s r → PrivB t r ∧ B t r = B s r
  t : ∀ r, PrivT s r → PrivT t r ∧ T t r = T s r

theorem Frame.rfl' (s : St) : Frame s s := ⟨fun _ h => ⟨h, rfl⟩, fun _ h => ⟨h, rfl⟩⟩

theorem Frame.dict {s t : St} (h : Frame s t) {a b} (x : OkD s a b) : OkD t a b := by
  cases x with
  | nil => exact .nil
  | @ref r hp h0 => have := h.b r hp; rw [← this.2] at h0 ⊢; exact .ref this.1 h0

theorem Frame.tracers {s t : St} (h : Frame s t) {a b} (x : OkT s a b) : OkT t a b := by
  cases x with
  | nil => exact .nil
  | @ref r hp => have := h.t r hp; rw [← this.2]; exact .ref this.1

theorem Frame.opt {s t : St} (h : Frame s t) {a b} (x : OkOpt s a b) : OkOpt t a b := by
  cases x
  case dict x => exact .dict (h.dict x)
  case tracers x => exact .tracers (h.tracers x)
  all_goals constructor

theorem Frame.obj {s t : St} (h : Frame s t) {a b} (x : OkObj s a b) : OkObj t a b :=
  ⟨x.writer, x.under, ⟨x.f.format, x.f.method, x.f.strategy, x.f.clevel, x.f.mlevel, x.f.wbits, h.dict x.f.dict, h.tracers x.f.tracers⟩⟩

structure Inv (s : St) (w : World) : Prop where
  ltB : ∀ r ∈ s.bytes, r < s.heapB.length
  ndB : s.bytes.Nodup
  eqB : w.bytes = s.bytes.map (B s)
  ltT : ∀ r ∈ s.tracers, r < s.heapT.length
  ndT : s.tracers.Nodup
  eqT : w.tracers = s.tracers.map (T s)
  opts : List.Forall₂ (OkOpt s) s.opts w.opts
  objs : List.Forall₂ (OkObj s) s.objs w.objs

theorem getD_append_lt {α : Type} (l : List α) (x d : α) {r : Nat} (h : r < l.length) : (l ++ [x]).getD r d = l.getD r d := by
  simp [List.getD_eq_getElem?_getD, List.getElem?_append_left h]

theorem getD_append_len {α : Type} (l : List α) (x d : α) : (l ++ [x]).getD l.length d = x := by
  simp [List.getD_eq_getElem?_getD]

theorem getD_modify_ne {α : Type} (l : List α) (g : α → α) (d : α) {i r : Nat} (h : r ≠ i) : (l.modify i g).getD r d = l.getD r d := by
  simp [List.getD_eq_getElem?_getD, List.getElem?_modify, Ne.symm h]

theorem getD_modify_eq {α : Type} (l : List α) (g : α → α) (d : α) {i : Nat} (h : i < l.length) : (l.modify i g).getD i d = g (l.getD i d) := by
  simp [List.getD_eq_getElem?_getD, List.getElem?_modify, h]

/-- a new array of the program -/
theorem pushB {s : St} {w : World} (h : Inv s w) (b : List UInt8) :
    Inv { s with heapB := s.heapB ++ [b], bytes := s.bytes ++ [s.heapB.length] } { w with bytes := w.bytes ++ [b] } := by
  have hF : Frame s { s with heapB := s.heapB ++ [b], bytes := s.bytes ++ [s.heapB.length] } := by
    refine ⟨fun r hr => ⟨⟨?_, ?_⟩, getD_append_lt _ _ _ hr.1⟩, fun r hr => ⟨hr, rfl⟩⟩
    · have := hr.1; simp; omega
    · have := hr.1; simp only [List.mem_append, List.mem_singleton, not_or]; exact ⟨hr.2, by omega⟩
  refine ⟨?_, ?_, ?_, h.ltT, h.ndT, h.eqT, h.opts.imp fun _ _ => hF.opt, h.objs.imp fun _ _ => hF.obj⟩
  · intro r hr
    simp only [List.mem_append, List.mem_singleton] at hr
    simp only [List.length_append, List.length_singleton]
    rcases hr with hr | rfl
    · have := h.ltB r hr; omega
    · omega
  · refine List.nodup_append.2 ⟨h.ndB, by simp, ?_⟩
    intro a ha b hb e
    simp only [List.mem_singleton] at hb
    have := h.ltB a ha
    omega
  · show w.bytes ++ [b] = (s.bytes ++ [s.heapB.length]).map fun r => (s.heapB ++ [b]).getD r []
    rw [h.eqB, List.map_append, List.map_singleton, getD_append_len]
    congr 1
    exact List.map_congr_left fun r hr => (getD_append_lt _ _ _ (h.ltB r hr)).symm

theorem pushT {s : St} {w : World} (h : Inv s w) (b : List Nat) :
    Inv { s with heapT := s.heapT ++ [b], tracers := s.tracers ++ [s.heapT.length] } { w with tracers := w.tracers ++ [b] } := by
  have hF : Frame s { s with heapT := s.heapT ++ [b], tracers := s.tracers ++ [s.heapT.length] } := by
    refine ⟨fun r hr => ⟨hr, rfl⟩, fun r hr => ⟨⟨?_, ?_⟩, getD_append_lt _ _ _ hr.1⟩⟩
    · have := hr.1; simp; omega
    · have := hr.1; simp only [List.mem_append, List.mem_singleton, not_or]; exact ⟨hr.2, by omega⟩
  refine ⟨h.ltB, h.ndB, h.eqB, ?_, ?_, ?_, h.opts.imp fun _ _ => hF.opt, h.objs.imp fun _ _ => hF.obj⟩
  · intro r hr
    simp only [List.mem_append, List.mem_singleton] at hr
    simp only [List.length_append, List.length_singleton]
    rcases hr with hr | rfl
    · have := h.ltT r hr; omega
    · omega
  · refine List.nodup_append.2 ⟨h.ndT, by simp, ?_⟩
    intro a ha b hb e
    simp only [List.mem_singleton] at hb
    have := h.ltT a ha
    omega
  · show w.tracers ++ [b] = (s.tracers ++ [s.heapT.length]).map fun r => (s.heapT ++ [b]).getD r []
    rw [h.eqT, List.map_append, List.map_singleton, getD_append_len]
    congr 1
    exact List.map_congr_left fun r hr => (getD_append_lt _ _ _ (h.ltT r hr)).symm

theorem map_modify {α β : Type} [DecidableEq α] (l : List α) (hn : l.Nodup) (f : α → β) (g : β → β) {i : Nat} {r : α} (h : l[i]? = some r) :
    (l.map f).modify i g = l.map fun a => if a = r then g (f a) else f a := by
  apply List.ext_getElem?
  intro j
  rw [List.getElem?_modify, List.getElem?_map, List.getElem?_map]
  cases hj : l[j]? with
  | none => rfl
  | some a =>
    simp only [Option.map_some, Option.map_eq_map]
    by_cases e : i = j
    · subst e
      rw [h] at hj
      cases hj
      simp
    · have : a ≠ r := by
        rintro rfl
        exact e ((List.getElem?_inj (List.getElem?_eq_some_iff.1 h).1 hn).1 (h.trans hj.symm))
      rw [if_neg e, if_neg this]

theorem pokeB {s : St} {w : World} (h : Inv s w) {i : Nat} {r : Nat} (hr : s.bytes[i]? = some r) (g : List UInt8 → List UInt8) :
    Inv { s with heapB := s.heapB.modify r g } { w with bytes := w.bytes.modify i g } := by
  have hm : r ∈ s.bytes := List.mem_of_getElem? hr
  have hF : Frame s { s with heapB := s.heapB.modify r g } := by
    refine ⟨fun q hq => ⟨⟨?_, hq.2⟩, getD_modify_ne _ _ _ ?_⟩, fun r hr => ⟨hr, rfl⟩⟩
    · have := hq.1; simpa using this
    · rintro rfl; exact hq.2 hm
  refine ⟨?_, h.ndB, ?_, h.ltT, h.ndT, h.eqT, h.opts.imp fun _ _ => hF.opt, h.objs.imp fun _ _ => hF.obj⟩
  · intro q hq; have := h.ltB q hq; simpa using this
  · show w.bytes.modify i g = s.bytes.map fun q => (s.heapB.modify r g).getD q []
    rw [h.eqB, map_modify _ h.ndB _ _ hr]
    refine List.map_congr_left fun q _ => ?_
    by_cases e : q = r
    · rw [if_pos e, e, getD_modify_eq _ _ _ (h.ltB r hm)]
    · rw [if_neg e, getD_modify_ne _ _ _ e]

theorem pokeT {s : St} {w : World} (h : Inv s w) {i : Nat} {r : Nat} (hr : s.tracers[i]? = some r) (g : List Nat → List Nat) :
    Inv { s with heapT := s.heapT.modify r g } { w with tracers := w.tracers.modify i g } := by
  have hm : r ∈ s.tracers := List.mem_of_getElem? hr
  have hF : Frame s { s with heapT := s.heapT.modify r g } := by
    refine ⟨fun r hr => ⟨hr, rfl⟩, fun q hq => ⟨⟨?_, hq.2⟩, getD_modify_ne _ _ _ ?_⟩⟩
    · have := hq.1; simpa using this
    · rintro rfl; exact hq.2 hm
  refine ⟨h.ltB, h.ndB, h.eqB, ?_, h.ndT, ?_, h.opts.imp fun _ _ => hF.opt, h.objs.imp fun _ _ => hF.obj⟩
  · intro q hq; have := h.ltT q hq; simpa using this
  · show w.tracers.modify i g = s.tracers.map fun q => (s.heapT.modify r g).getD q []
    rw [h.eqT, map_modify _ h.ndT _ _ hr]
    refine List.map_congr_left fun q _ => ?_
    by_cases e : q = r
    · rw [if_pos e, e, getD_modify_eq _ _ _ (h.ltT r hm)]
    · rw [if_neg e, getD_modify_ne _ _ _ e]

/-- a new array which the program has no reference to -/
theorem allocB {s : St} {w : World} (h : Inv s w) (b : List UInt8) : Inv { s with heapB := s.heapB ++ [b] } w := by
  have hF : Frame s { s with heapB := s.heapB ++ [b] } := by
    refine ⟨fun r hr => ⟨⟨?_, hr.2⟩, getD_append_lt _ _ _ hr.1⟩, fun r hr => ⟨hr, rfl⟩⟩
    have := hr.1; simp; omega
  refine ⟨?_, h.ndB, ?_, h.ltT, h.ndT, h.eqT, h.opts.imp fun _ _ => hF.opt, h.objs.imp fun _ _ => hF.obj⟩
  · intro r hr; have := h.ltB r hr; simp; omega
  · rw [h.eqB]; exact List.map_congr_left fun r hr => (getD_append_lt _ _ _ (h.ltB r hr)).symm

theorem allocT {s : St} {w : World} (h : Inv s w) (b : List Nat) : Inv { s with heapT := s.heapT ++ [b] } w := by
  have hF : Frame s { s with heapT := s.heapT ++ [b] } := by
    refine ⟨fun r hr => ⟨hr, rfl⟩, fun r hr => ⟨⟨?_, hr.2⟩, getD_append_lt _ _ _ hr.1⟩⟩
    have := hr.1; simp; omega
  refine ⟨h.ltB, h.ndB, h.eqB, ?_, h.ndT, ?_, h.opts.imp fun _ _ => hF.opt, h.objs.imp fun _ _ => hF.obj⟩
  · intro r hr; have := h.ltT r hr; simp; omega
  · rw [h.eqT]; exact List.map_congr_left fun r hr => (getD_append_lt _ _ _ (h.ltT r hr)).symm

theorem give {s : St} {w : World} (h : Inv s w) {v : OptV} {x : Opt} (hx : OkOpt s v x) : Inv { s with opts := s.opts ++ [v] } { w with opts := w.opts ++ [x] } :=
  have hF : Frame s { s with opts := s.opts ++ [v] } := ⟨fun _ h => ⟨h, rfl⟩, fun _ h => ⟨h, rfl⟩⟩
  ⟨h.ltB, h.ndB, h.eqB, h.ltT, h.ndT, h.eqT,
    List.rel_append (h.opts.imp fun _ _ => hF.opt) (.cons (hF.opt hx) .nil), h.objs.imp fun _ _ => hF.obj⟩

theorem pick {s : St} {w : World} (h : Inv s w) (is : List Nat) : List.Forall₂ (OkOpt s) (is.filterMap (s.opts[·]?)) (is.filterMap (w.opts[·]?)) := by
  induction is with
  | nil => exact .nil
  | cons i is ih =>
    have hl := h.opts.length_eq
    by_cases e : i < s.opts.length
    · have e2 : i < w.opts.length := hl ▸ e
      simp only [List.filterMap_cons, List.getElem?_eq_getElem e, List.getElem?_eq_getElem e2]
      exact .cons (List.forall₂_iff_get.1 h.opts |>.2 i e e2) ih
    · have e2 : ¬ i < w.opts.length := hl ▸ e
      simp only [List.filterMap_cons, List.getElem?_eq_none (Nat.le_of_not_lt e), List.getElem?_eq_none (Nat.le_of_not_lt e2)]
      exact ih

theorem newObj {s : St} {w : World} (h : Inv s w) {o : Obj} {x : Spec.Snap.Obj} (hx : OkObj s o x) :
    Inv { s with objs := s.objs ++ [o] } { w with objs := w.objs ++ [x] } :=
  have hF : Frame s { s with objs := s.objs ++ [o] } := ⟨fun _ h => ⟨h, rfl⟩, fun _ h => ⟨h, rfl⟩⟩
  ⟨h.ltB, h.ndB, h.eqB, h.ltT, h.ndT, h.eqT, h.opts.imp fun _ _ => hF.opt,
    List.rel_append (h.objs.imp fun _ _ => hF.obj) (.cons (hF.obj hx) .nil)⟩

theorem forall₂_modify {α β : Type} {R : α → β → Prop} {a : List α} {b : List β} (h : List.Forall₂ R a b) {f : α → α} {g : β → β}
    (hfg : ∀ x y, R x y → R (f x) (g y)) (i : Nat) : List.Forall₂ R (a.modify i f) (b.modify i g) := by
  induction h generalizing i with
  | nil => cases i <;> exact .nil
  | @cons x y a b h1 h2 ih =>
    cases i with
    | zero => exact .cons (hfg _ _ h1) h2
    | succ i => exact .cons h1 (ih i)

/-- the number of an array -/
theorem Inv.bytesAt {s : St} {w : World} (h : Inv s w) (i : Nat) : w.bytes[i]? = (s.bytes[i]?).map (B s) := by rw [h.eqB, List.getElem?_map]
theorem Inv.tracersAt {s : St} {w : World} (h : Inv s w) (i : Nat) : w.tracers[i]? = (s.tracers[i]?).map (T s) := by rw [h.eqT, List.getElem?_map]

theorem modify_none {α : Type} (l : List α) (f : α → α) {i : Nat} (h : l[i]? = none) : l.modify i f = l := by
  apply List.ext_getElem?
  intro j
  rw [List.getElem?_modify]
  by_cases e : i = j
  · subst e; rw [h]; rfl
  · simp [e]

/-- both machines do the same -/
abbrev Same (p : Seen × St) (q : Seen × World) : Prop := p.1 = q.1 ∧ Inv p.2 q.2

theorem plain_same {s : St} {w : World} (h : Inv s w) {v : OptV} {x : Opt} (hx : OkOpt s v x) : Same (s.plain x.valid v) (w.option x) := by
  cases hv : x.valid
  · simp only [St.plain, World.option, hv]; exact ⟨rfl, h⟩
  · simp only [St.plain, World.option, hv, if_true]; exact ⟨rfl, give h hx⟩

theorem withDict_same {s : St} {w : World} (h : Inv s w) {r : Nat} : Same (s.withDictionary (some r)) (w.option (.dict (some (B s r)))) := by
  by_cases e : (B s r).length = 0
  · have e2 : B s r = [] := List.eq_nil_of_length_eq_zero e
    simp only [St.withDictionary]
    rw [if_pos e, e2]
    exact ⟨rfl, h⟩
  · have e2 : B s r ≠ [] := fun q => e (by rw [q]; rfl)
    simp only [St.withDictionary]
    rw [if_neg e]
    have hv : Opt.valid (.dict (some (B s r))) = true := by simp only [Opt.valid]; cases hb : B s r with | nil => exact absurd hb e2 | cons => rfl
    simp only [World.option, hv, if_true]
    refine ⟨rfl, ?_⟩
    have h1 := allocB h (B s r)
    refine give h1 (.dict ?_)
    have hp : PrivB { s with heapB := s.heapB ++ [B s r] } s.heapB.length :=
      ⟨by show _ < (s.heapB ++ [B s r]).length; simp, fun q => Nat.lt_irrefl _ (h.ltB _ q)⟩
    have hc : B { s with heapB := s.heapB ++ [B s r] } s.heapB.length = B s r := getD_append_len _ _ _
    have := OkD.ref hp (by rw [hc]; exact e2)
    rw [hc] at this
    exact this

theorem withTracers_same {s : St} {w : World} (h : Inv s w) {r : Nat} : Same (s.withTracers (some r)) (w.option (.tracers (T s r))) := by
  simp only [World.option, Opt.valid, if_true]
  by_cases e : (T s r).length = 0
  · have e2 : T s r = [] := List.eq_nil_of_length_eq_zero e
    simp only [St.withTracers]
    rw [if_pos e, e2]
    exact ⟨rfl, give h (.tracers .nil)⟩
  · simp only [St.withTracers]
    rw [if_neg e]
    refine ⟨rfl, ?_⟩
    have h1 := allocT h (T s r)
    refine give h1 (.tracers ?_)
    have hp : PrivT { s with heapT := s.heapT ++ [T s r] } s.heapT.length :=
      ⟨by show _ < (s.heapT ++ [T s r]).length; simp, fun q => Nat.lt_irrefl _ (h.ltT _ q)⟩
    have hc : T { s with heapT := s.heapT ++ [T s r] } s.heapT.length = T s r := getD_append_len _ _ _
    have := OkT.ref hp
    rw [hc] at this
    exact this

theorem getDict_same {s : St} {w : World} (h : Inv s w) {o : Obj} {d : Option (List UInt8)} (hd : OkD s o.f.dict d) :
    (d = none → Same (s.getDict o) (.dict none, w)) ∧ ∀ b, d = some b → Same (s.getDict o) (.dict (some b), { w with bytes := w.bytes ++ [b] }) := by
  simp only [St.getDict]
  generalize o.f.dict = a at hd
  cases hd with
  | nil => exact ⟨fun _ => ⟨rfl, h⟩, fun b e => by cases e⟩
  | @ref r hp h0 =>
    refine ⟨fun e => (nomatch e), fun b e => ?_⟩
    cases e
    simp only []
    rw [if_neg fun q => h0 (List.eq_nil_of_length_eq_zero q)]
    refine ⟨?_, pushB h _⟩
    show Seen.dict (some ((s.heapB ++ [B s r]).getD s.heapB.length [])) = _
    rw [getD_append_len]

theorem getTracers_same {s : St} {w : World} (h : Inv s w) {o : Obj} {d : List Nat} (hd : OkT s o.f.tracers d) :
    Same (s.getTracers o) (.tracers d, { w with tracers := w.tracers ++ [d] }) := by
  simp only [St.getTracers]
  generalize o.f.tracers = a at hd
  cases hd with
  | nil => exact ⟨rfl, pushT h _⟩
  | @ref r hp =>
    refine ⟨?_, pushT h _⟩
    show Seen.tracers ((s.heapT ++ [T s r]).getD s.heapT.length []) = _
    rw [getD_append_len]

theorem answer_same {s : St} {w : World} (h : Inv s w) {o : Obj} {x : Spec.Snap.Obj} (hx : OkObj s o x) (q : Query) : Same (s.answer o q) (w.answer x q) := by
  obtain ⟨h1, h2, h3⟩ := hx
  have hd : OkD s o.f.dict (Spec.Snap.dictOf x) := by
    have := h3.dict; simp only [eff] at this; split at this <;> exact this
  have ht : OkT s o.f.tracers (Spec.Snap.tracersOf x) := by
    have := h3.tracers; simp only [eff] at this; split at this <;> exact this
  have hf : o.f.format = Spec.Snap.fmt x := by
    have := h3.format; simp only [eff] at this; split at this <;> exact this
  have hm : o.f.mlevel = Spec.Snap.memory x := by
    have := h3.mlevel; simp only [eff] at this; split at this <;> exact this
  have hw : o.f.wbits = Spec.Snap.window x := by
    have := h3.wbits; simp only [eff] at this; split at this <;> exact this
  have h1' := h1
  cases q with
  | format => simp only [St.answer, World.answer, hf]; exact ⟨rfl, h⟩
  | method =>
    simp only [St.answer, World.answer, h1]
    cases hb : x.writer
    · exact ⟨rfl, h⟩
    · have := h3.method; simp only [eff, hb, if_true] at this; simp only [if_true, this]; exact ⟨rfl, h⟩
  | strategy =>
    simp only [St.answer, World.answer, h1]
    cases hb : x.writer
    · exact ⟨rfl, h⟩
    · have := h3.strategy; simp only [eff, hb, if_true] at this; simp only [if_true, this]; exact ⟨rfl, h⟩
  | clevel =>
    simp only [St.answer, World.answer, h1]
    cases hb : x.writer
    · exact ⟨rfl, h⟩
    · have := h3.clevel; simp only [eff, hb, if_true] at this; simp only [if_true, this]; exact ⟨rfl, h⟩
  | mlevel => simp only [St.answer, World.answer, hm]; exact ⟨rfl, h⟩
  | wbits => simp only [St.answer, World.answer, hw]; exact ⟨rfl, h⟩
  | dict =>
    have := getDict_same h hd
    show Same (s.getDict o) _
    simp only [World.answer]
    cases e : Spec.Snap.dictOf x with
    | none => exact this.1 e
    | some b => exact this.2 b e
  | tracers => exact getTracers_same h ht
  | underlying => simp only [St.answer, World.answer, h2]; exact ⟨rfl, h⟩

theorem step_same {s : St} {w : World} (h : Inv s w) (a : Act) : Same (s.step a) (w.step a) := by
  cases a with
  | makeBytes b => exact ⟨rfl, pushB h b⟩
  | makeTracers b => exact ⟨rfl, pushT h b⟩
  | pokeByte i pos b =>
    simp only [St.step, World.step]
    cases e : s.bytes[i]? with
    | none => refine ⟨rfl, ?_⟩; rw [modify_none _ _ (by rw [h.bytesAt, e]; rfl)]; exact h
    | some r => exact ⟨rfl, pokeB h e _⟩
  | pokeTracer i pos b =>
    simp only [St.step, World.step]
    cases e : s.tracers[i]? with
    | none => refine ⟨rfl, ?_⟩; rw [modify_none _ _ (by rw [h.tracersAt, e]; rfl)]; exact h
    | some r => exact ⟨rfl, pokeT h e _⟩
  | lookBytes i =>
    simp only [St.step, World.step, h.bytesAt]
    cases s.bytes[i]? with
    | none => exact ⟨rfl, h⟩
    | some r => exact ⟨rfl, h⟩
  | lookTracers i =>
    simp only [St.step, World.step, h.tracersAt]
    cases s.tracers[i]? with
    | none => exact ⟨rfl, h⟩
    | some r => exact ⟨rfl, h⟩
  | withDict i =>
    cases i with
    | none => exact plain_same h (.dict .nil)
    | some i =>
      simp only [St.step, World.step, h.bytesAt]
      cases s.bytes[i]? with
      | none => exact ⟨rfl, h⟩
      | some r => exact withDict_same h
  | withTracers i =>
    cases i with
    | none => exact plain_same h (.tracers .nil)
    | some i =>
      simp only [St.step, World.step, h.tracersAt]
      cases s.tracers[i]? with
      | none => exact ⟨rfl, h⟩
      | some r => exact withTracers_same h
  | withFormat f => exact plain_same h (.format f)
  | withMethod f => exact plain_same h (.method f)
  | withStrategy f => exact plain_same h (.strategy f)
  | withLevel f => exact plain_same h (.clevel f)
  | withMemory f => exact plain_same h (.mlevel f)
  | withWindow f => exact plain_same h (.wbits f)
  | newWriter u is => exact ⟨rfl, newObj h (newWriter_ok (pick h is) u)⟩
  | newReader u is => exact ⟨rfl, newObj h (newReader_ok (pick h is) u)⟩
  | reset x u is =>
    refine ⟨rfl, ?_⟩
    have hp := pick h is
    have hF : Frame s { s with objs := s.objs.modify x (·.reset u (is.filterMap (s.opts[·]?))) } := ⟨fun _ h => ⟨h, rfl⟩, fun _ h => ⟨h, rfl⟩⟩
    exact ⟨h.ltB, h.ndB, h.eqB, h.ltT, h.ndT, h.eqT, h.opts.imp fun _ _ => hF.opt,
      (forall₂_modify h.objs (fun a b hab => reset_ok hab hp u) x).imp fun _ _ => hF.obj⟩
  | ask x q =>
    have hl := h.objs.length_eq
    simp only [St.step, World.step]
    by_cases e : x < s.objs.length
    · have e2 : x < w.objs.length := hl ▸ e
      rw [List.getElem?_eq_getElem e, List.getElem?_eq_getElem e2]
      exact answer_same h (List.forall₂_iff_get.1 h.objs |>.2 x e e2) q
    · have e2 : ¬ x < w.objs.length := hl ▸ e
      rw [List.getElem?_eq_none (Nat.le_of_not_lt e), List.getElem?_eq_none (Nat.le_of_not_lt e2)]
      exact ⟨rfl, h⟩

theorem run_same {s : St} {w : World} (h : Inv s w) (as : List Act) : s.run as = w.run as := by
  induction as generalizing s w with
  | nil => rfl
  | cons a as ih =>
    have := step_same h a
    show (s.step a).1 :: _ = (w.step a).1 :: _
    rw [this.1, ih this.2]

end Flate.Proof.Share
