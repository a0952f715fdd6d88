/-
The events of a Writer and of a Reader which describe the blocks at the same place are the same.
-/
import Verif.Proof.Unique

namespace Flate.Proof
open Flate.Spec Flate.Model

/-- the last of the events is the end of a final block -/
def FinalEnd (es : List Event) : Prop := ∃ l e t, es = l ++ [e] ∧ e.kind = .blockEnd t true

theorem FinalEnd.tail {a : Event} {es : List Event} (h : FinalEnd (a :: es)) (hn : ∀ t, a.kind ≠ .blockEnd t true) : FinalEnd es := by
  obtain ⟨l, e, t, h1, h2⟩ := h
  cases l with
  | nil => cases h1; exact absurd h2 (hn t)
  | cons x l => cases h1; exact ⟨l, e, t, rfl, h2⟩

theorem FinalEnd.ne_nil (h : FinalEnd []) : False := by
  obtain ⟨l, e, t, h1, _⟩ := h
  cases l <;> cases h1

theorem typeBits_inj {t t' : BlockType} (h : typeBits t = typeBits t') : t = t' := by
  cases t <;> cases t' <;> first | rfl | cases h

theorem head_split {f f' : Bool} {t t' : BlockType} {a b : List Bool} (e : f :: typeBits t ++ a = f' :: typeBits t' ++ b) : f = f' ∧ t = t' ∧ a = b := by
  obtain ⟨e1, e2⟩ := List.append_inj e (by cases t <;> cases t' <;> rfl)
  have h1 : f = f' := (List.cons.inj e1).1
  exact ⟨h1, typeBits_inj (List.cons.inj e1).2, e2⟩

/-- the codes at the beginning of a block -/
theorem tables_split {ok : List Nat → Prop} (hok : ∀ l, ok l → IsCode l) {t : BlockType} {c c' : List Bool} {tr tr' : Trees} (h : Codes ok t c tr) (h' : Tables ok t c' tr') {a b : List Bool}
    (e : c ++ a = c' ++ b) : c = c' ∧ tr = tr' ∧ a = b := by
  cases h with
  | static => cases h'; exact ⟨rfl, rfl, e⟩
  | dynamic hd hv =>
    cases h' with
    | dynamic hd' hl =>
      obtain ⟨rfl, e2⟩ := dyn_split hok (valid_loose hv) hl e
      exact ⟨rfl, rfl, e2⟩

theorem codes_code {ok : List Nat → Prop} (hok : ∀ l, ok l → IsCode l) {t : BlockType} {c : List Bool} {tr : Trees} (h : Codes ok t c tr) : IsCode tr.ll ∧ IsCode tr.d := by
  cases h with
  | static => exact ⟨isComplete_isCode fixedLL_complete, isComplete_isCode fixedD_complete⟩
  | dynamic hd hv =>
    obtain ⟨_, _, _, _, _, _, _, _, _, _, _, _, _, h1, h2⟩ := hv
    exact ⟨hok _ h1, hok _ h2⟩

theorem head_split' {x y : List Bool} {f f' : Bool} {t t' : BlockType} {a b u v : List Bool} (hx : x = f :: typeBits t ++ a) (hy : y = f' :: typeBits t' ++ b) (e : x ++ u = y ++ v) :
    f = f' ∧ t = t' ∧ a ++ u = b ++ v := by
  subst hx hy
  exact head_split (by simpa only [List.append_assoc] using e)

theorem at_split {B : List UInt8} {p : Nat} {b b' : List Bool} (h : ∃ pre r, bytesBits B = pre ++ b ++ r ∧ pre.length = p) (h' : BitsAt B p b') : ∃ r r', b ++ r = b' ++ r' := by
  obtain ⟨pre, r, h1, h2⟩ := h
  obtain ⟨pre', r', h3, h4⟩ := h'
  refine ⟨r, r', (List.append_inj (t₁ := b ++ r) (t₂ := b' ++ r') ?_ (h2.trans h4.symm)).2⟩
  rw [← List.append_assoc, ← List.append_assoc, ← h1, ← h3]

theorem blockRun_mono {ok : List Nat → Prop} {B C : List UInt8} (hp : B <+: C) {p : Nat} {es : List Event} (h : BlockRun ok B p es) : BlockRun ok C p es := by
  have hb : ∀ {p b}, BitsAt B p b → BitsAt C p b := by
    rintro p b ⟨pre, r, h1, h2⟩
    obtain ⟨x, rfl⟩ := hp
    exact ⟨pre, r ++ bytesBits x, by rw [bytesBits_append, h1]; simp, h2⟩
  induction h with
  | nothing p => exact .nothing p
  | begun f t e h1 h2 => exact .begun f t e (hb h1) h2
  | tables f t h tr e e' h1 h2 h3 h4 => exact .tables f t h tr e e' (hb h1) h2 h3 h4
  | stored f pad data e e' es b h1 h2 h3 h4 h5 h6 h7 _ ih => exact .stored f pad data e e' es b h1 h2 h3 (hb h4) h5 h6 h7 ih
  | coded f t h tr is e e' e'' es b h1 h2 h3 h4 h5 h6 h7 h8 h9 _ ih => exact .coded f t h tr is e e' e'' es b h1 h2 h3 h4 (hb h5) h6 h7 h8 h9 ih

/-- Blocks which a Writer has described completely, described by a Reader. -/
theorem blocks_agree {ok : List Nat → Prop} (hok : ∀ l, ok l → IsCode l) {win W : Nat} {B : List UInt8} {p : Nat} {h : List UInt8} {n : Nat} {es : List Event}
    (hw : WBlocks ok win W (bytesBits B) p h n es) : FinalEnd es → ∀ {es' : List Event}, BlockRun ok B p es' →
    es'.map (·.kind) <+: es.map (·.kind) ∧ (FinalEnd es' → es'.map (·.kind) = es.map (·.kind)) := by
  induction hw with
  | nothing p h n => exact fun hf => hf.ne_nil.elim
  | @cons p h n f b es es2 data hb hat hfin hrest ih =>
    intro hf es' hr
    cases hb with
    | stored pad data e e' _ h1 h2 h3 h4 h5 =>
      obtain ⟨k1, _⟩ := h4
      obtain ⟨k2, _⟩ := h5
      have hb1 : b = f :: typeBits .stored ++ (pad ++ natBits 16 data.length ++ natBits 16 (65535 - data.length) ++ bytesBits data) := by rw [h1]; simp [typeBits]
      generalize hp : p = p' at hr
      cases hr with
      | nothing => exact ⟨List.nil_prefix, fun x => x.ne_nil.elim⟩
      | begun f' t x hx hk =>
        subst hp
        obtain ⟨r, r', e1⟩ := at_split hat hx
        obtain ⟨rfl, rfl, _⟩ := head_split' hb1 (List.append_nil (f' :: typeBits t)).symm e1
        refine ⟨⟨_, by simp [k1, hk.1]; rfl⟩, fun x => ((x.tail (by simp [hk.1])).ne_nil).elim⟩
      | tables f' t c tr x x' hx ht hk hk' =>
        subst hp
        obtain ⟨r, r', e1⟩ := at_split hat hx
        obtain ⟨rfl, rfl, _⟩ := head_split' hb1 rfl e1
        cases ht
      | stored f' pad' data' x x' es3 b' g1 g2 g3 hx g4 g5 g6 g7 =>
        subst hp
        obtain ⟨r, r', e1⟩ := at_split hat hx
        have hb2 : b' = f' :: typeBits .stored ++ (pad' ++ natBits 16 data'.length ++ natBits 16 (65535 - data'.length) ++ bytesBits data') := by rw [g1]; simp [typeBits]
        obtain ⟨rfl, _, e2⟩ := head_split' hb1 hb2 e1
        simp only [List.append_assoc] at e2
        obtain ⟨e3, e4⟩ := List.append_inj e2 (by omega)
        obtain ⟨e5, _⟩ := nat_split (n := 16) (by omega) (by omega) e4
        have hl : b.length = b'.length := by rw [hb1, hb2]; simp [e3, e5]
        rw [← hl] at g7
        cases f with
        | true =>
          obtain rfl := hfin rfl
          obtain rfl := g6 rfl
          have : [x, x'].map Event.kind = ([e, e'] ++ []).map Event.kind := by simp [k1, k2, g4.1, g5.1]
          exact ⟨this ▸ List.prefix_refl _, fun _ => this⟩
        | false =>
          have hf2 : FinalEnd es2 := FinalEnd.tail (FinalEnd.tail (a := e) hf (by simp [k1])) (by simp [k2])
          obtain ⟨i1, i2⟩ := ih hf2 g7
          refine ⟨?_, fun hx' => ?_⟩
          · simpa [k1, k2, g4.1, g5.1] using i1
          · have := i2 ((hx'.tail (by simp [g4.1])).tail (by simp [g5.1]))
            simp [k1, k2, g4.1, g5.1, this]
      | coded f' t c tr is x x' x'' es3 b' g1 g2 g3 g3' hx g4 g5 g5' g6 g7 =>
        subst hp
        obtain ⟨r, r', e1⟩ := at_split hat hx
        obtain ⟨rfl, rfl, _⟩ := head_split' hb1 (g1.trans (List.append_assoc (f' :: typeBits t) c _)) e1
        cases g2
    | coded t c tr is data e e' e'' _ h1 h2 h3 h3' h3'' h4 h5 h6 =>
      obtain ⟨k1, _⟩ := h4
      obtain ⟨k2, _⟩ := h5
      obtain ⟨k3, _⟩ := h6
      have hb1 : b = f :: typeBits t ++ (c ++ dataBits tr.ll tr.d is) := by rw [h1]; simp
      generalize hp : p = p' at hr
      cases hr with
      | nothing => exact ⟨List.nil_prefix, fun x => x.ne_nil.elim⟩
      | begun f' t' x hx hk =>
        subst hp
        obtain ⟨r, r', e1⟩ := at_split hat hx
        obtain ⟨rfl, rfl, _⟩ := head_split' hb1 (List.append_nil (f' :: typeBits t')).symm e1
        exact ⟨⟨_, by simp [k1, hk.1]; rfl⟩, fun x => ((x.tail (by simp [hk.1])).ne_nil).elim⟩
      | tables f' t' c' tr' x x' hx ht hk hk' =>
        subst hp
        obtain ⟨r, r', e1⟩ := at_split hat hx
        obtain ⟨rfl, rfl, e2⟩ := head_split' hb1 rfl e1
        rw [List.append_assoc] at e2
        obtain ⟨rfl, rfl, _⟩ := tables_split hok h2 ht e2
        exact ⟨⟨_, by simp [k1, k2, hk.1, hk'.1]; rfl⟩, fun x => (((x.tail (by simp [hk.1])).tail (by simp [hk'.1])).ne_nil).elim⟩
      | stored f' pad' data' x x' es3 b' g1 g2 g3 hx g4 g5 g6 g7 =>
        subst hp
        obtain ⟨r, r', e1⟩ := at_split hat hx
        have hb2 : b' = f' :: typeBits .stored ++ (pad' ++ natBits 16 data'.length ++ natBits 16 (65535 - data'.length) ++ bytesBits data') := by rw [g1]; simp [typeBits]
        obtain ⟨rfl, rfl, _⟩ := head_split' hb1 hb2 e1
        cases h2
      | coded f' t' c' tr' is' x x' x'' es3 b' g1 g2 g3 g3' hx g4 g5 g5' g6 g7 =>
        subst hp
        obtain ⟨r, r', e1⟩ := at_split hat hx
        have hb2 : b' = f' :: typeBits t' ++ (c' ++ dataBits tr'.ll tr'.d is') := by rw [g1]; simp
        obtain ⟨rfl, rfl, e2⟩ := head_split' hb1 hb2 e1
        simp only [List.append_assoc] at e2
        obtain ⟨rfl, rfl, e3⟩ := tables_split hok h2 g2 e2
        obtain ⟨i1, i2⟩ := codes_code hok h2
        obtain ⟨rfl, _⟩ := data_split i1 i2 h3' h3 g3 e3
        have hl : b.length = b'.length := by rw [hb1, hb2]
        rw [← hl] at g7
        cases f with
        | true =>
          obtain rfl := hfin rfl
          obtain rfl := g6 rfl
          have : [x, x', x''].map Event.kind = ([e, e', e''] ++ []).map Event.kind := by simp [k1, k2, k3, g4.1, g5.1, g5'.1]
          exact ⟨this ▸ List.prefix_refl _, fun _ => this⟩
        | false =>
          have hf2 : FinalEnd es2 := FinalEnd.tail (FinalEnd.tail (FinalEnd.tail (a := e) hf (by simp [k1])) (by simp [k2])) (by simp [k3])
          obtain ⟨i1, i2⟩ := ih hf2 g7
          refine ⟨?_, fun hx' => ?_⟩
          · simpa [k1, k2, k3, g4.1, g5.1, g5'.1] using i1
          · have := i2 (((hx'.tail (by simp [g4.1])).tail (by simp [g5.1])).tail (by simp [g5'.1]))
            simp [k1, k2, k3, g4.1, g5.1, g5'.1, this]

end Flate.Proof
