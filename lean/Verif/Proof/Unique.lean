/-
The bits of a block can be read in one way only.  (About the specification of DEFLATE, not about the code.)
-/
import Verif.Proof.Huffman
import Verif.Proof.Bits
import Verif.Spec.WBlockEvents

namespace Flate.Proof
open Flate.Spec Flate.Model

theorem code_split {lens : List Nat} (hc : IsCode lens) {s t : Nat} (hs : Used lens s) (ht : Used lens t) {a b : List Bool} (e : codeBits lens s ++ a = codeBits lens t ++ b) : s = t ∧ a = b := by
  have := prefix_unique hc hs ht (l := codeBits lens s ++ a) (List.prefix_append _ _) (e ▸ List.prefix_append _ _)
  subst this
  exact ⟨rfl, List.append_cancel_left e⟩

theorem nat_split {n u v : Nat} (hu : u < 2 ^ n) (hv : v < 2 ^ n) {a b : List Bool} (e : natBits n u ++ a = natBits n v ++ b) : u = v ∧ a = b := by
  obtain ⟨e1, e2⟩ := List.append_inj e (by simp)
  exact ⟨natBits_inj e1 hu hv, e2⟩

theorem data_split {ll d : List Nat} (h1 : IsCode ll) (h2 : IsCode d) (hu : Used ll 256) {a b : List Bool} : ∀ {is is' : List Item}, (∀ i ∈ is, i.Valid ll d) → (∀ i ∈ is', i.Valid ll d) →
    dataBits ll d is ++ a = dataBits ll d is' ++ b → is = is' ∧ a = b
  | [], [], _, _, e => ⟨rfl, (code_split h1 hu hu (by simpa [dataBits] using e)).2⟩
  | [], .lit x :: is', _, v', e => by
    have hx : Used ll x.toNat := v' (.lit x) (by simp)
    have := (code_split h1 hu hx (a := a) (b := dataBits ll d is' ++ b) (by simpa [dataBits, Item.bits] using e)).1
    have := UInt8.toNat_lt x
    omega
  | [], .ref li lx di dx :: is', _, v', e => by
    obtain ⟨_, _, _, _, hx, _⟩ : (Item.ref li lx di dx).Valid ll d := v' _ (by simp)
    have := (code_split h1 hu hx (a := a) (b := natBits (lenExtra.getD li 0) lx ++ codeBits d di ++ natBits (distExtra.getD di 0) dx ++ (dataBits ll d is' ++ b)) (by simpa [dataBits, Item.bits] using e)).1
    omega
  | .lit x :: is, [], v, _, e => by
    have hx : Used ll x.toNat := v (.lit x) (by simp)
    have := (code_split h1 hu hx (a := b) (b := dataBits ll d is ++ a) (by simpa [dataBits, Item.bits] using e.symm)).1
    have := UInt8.toNat_lt x
    omega
  | .ref li lx di dx :: is, [], v, _, e => by
    obtain ⟨_, _, _, _, hx, _⟩ : (Item.ref li lx di dx).Valid ll d := v _ (by simp)
    have := (code_split h1 hu hx (a := b) (b := natBits (lenExtra.getD li 0) lx ++ codeBits d di ++ natBits (distExtra.getD di 0) dx ++ (dataBits ll d is ++ a)) (by simpa [dataBits, Item.bits] using e.symm)).1
    omega
  | .lit x :: is, .lit y :: is', v, v', e => by
    have hx : Used ll x.toNat := v (.lit x) (by simp)
    have hy : Used ll y.toNat := v' (.lit y) (by simp)
    obtain ⟨g1, g2⟩ := code_split h1 hx hy (a := dataBits ll d is ++ a) (b := dataBits ll d is' ++ b) (by simpa [dataBits, Item.bits] using e)
    obtain ⟨g3, g4⟩ := data_split h1 h2 hu (fun i hi => v i (List.mem_cons_of_mem _ hi)) (fun i hi => v' i (List.mem_cons_of_mem _ hi)) g2
    rw [UInt8.toNat_inj.1 g1, g3]
    exact ⟨rfl, g4⟩
  | .lit x :: is, .ref li lx di dx :: is', v, v', e => by
    have hx : Used ll x.toNat := v (.lit x) (by simp)
    obtain ⟨_, _, _, _, hy, _⟩ : (Item.ref li lx di dx).Valid ll d := v' _ (by simp)
    have := (code_split h1 hx hy (a := dataBits ll d is ++ a) (b := natBits (lenExtra.getD li 0) lx ++ codeBits d di ++ natBits (distExtra.getD di 0) dx ++ (dataBits ll d is' ++ b))
      (by simpa [dataBits, Item.bits] using e)).1
    have := UInt8.toNat_lt x
    omega
  | .ref li lx di dx :: is, .lit x :: is', v, v', e => by
    have hx : Used ll x.toNat := v' (.lit x) (by simp)
    obtain ⟨_, _, _, _, hy, _⟩ : (Item.ref li lx di dx).Valid ll d := v _ (by simp)
    have := (code_split h1 hx hy (a := dataBits ll d is' ++ b) (b := natBits (lenExtra.getD li 0) lx ++ codeBits d di ++ natBits (distExtra.getD di 0) dx ++ (dataBits ll d is ++ a))
      (by simpa [dataBits, Item.bits] using e.symm)).1
    have := UInt8.toNat_lt x
    omega
  | .ref li lx di dx :: is, .ref li' lx' di' dx' :: is', v, v', e => by
    obtain ⟨_, p1, _, p2, hx, hd⟩ : (Item.ref li lx di dx).Valid ll d := v _ (by simp)
    obtain ⟨_, p1', _, p2', hx', hd'⟩ : (Item.ref li' lx' di' dx').Valid ll d := v' _ (by simp)
    obtain ⟨g1, e1⟩ := code_split h1 hx hx' (a := natBits (lenExtra.getD li 0) lx ++ (codeBits d di ++ (natBits (distExtra.getD di 0) dx ++ (dataBits ll d is ++ a))))
      (b := natBits (lenExtra.getD li' 0) lx' ++ (codeBits d di' ++ (natBits (distExtra.getD di' 0) dx' ++ (dataBits ll d is' ++ b)))) (by simpa [dataBits, Item.bits] using e)
    obtain rfl : li = li' := by omega
    obtain ⟨rfl, e2⟩ := nat_split p1 p1' e1
    obtain ⟨rfl, e3⟩ := code_split h2 hd hd' e2
    obtain ⟨rfl, e4⟩ := nat_split p2 p2' e3
    obtain ⟨g3, g4⟩ := data_split h1 h2 hu (fun i hi => v i (List.mem_cons_of_mem _ hi)) (fun i hi => v' i (List.mem_cons_of_mem _ hi)) e4
    rw [g3]
    exact ⟨rfl, g4⟩

theorem clStep_grows {acc acc' : List Nat} {s x : Nat} (h : clStep acc s x = some acc') : acc.length < acc'.length := by
  unfold clStep at h
  split at h
  · cases h; simp
  · split at h
    · obtain ⟨l, _, rfl⟩ := Option.map_eq_some_iff.1 h; simp; omega
    · split at h
      · cases h; simp; omega
      · split at h
        · cases h; simp; omega
        · cases h

theorem clExpand_grows : ∀ {rle : List (Nat × Nat)} {acc l : List Nat}, clExpand acc rle = some l → acc.length ≤ l.length
  | [], acc, l, h => by cases h; exact Nat.le_refl _
  | (s, x) :: r, acc, l, h => by
    obtain ⟨acc', h1, h2⟩ := Option.bind_eq_some_iff.1 h
    have := clStep_grows h1
    have := clExpand_grows h2
    omega

theorem rle_split {cl : List Nat} (hc : IsCode cl) {a b : List Bool} : ∀ {rle rle' : List (Nat × Nat)} {acc l l' : List Nat}, (∀ p ∈ rle, Used cl p.1 ∧ p.2 < 2 ^ clExtra p.1) →
    (∀ p ∈ rle', Used cl p.1 ∧ p.2 < 2 ^ clExtra p.1) → clExpand acc rle = some l → clExpand acc rle' = some l' → l.length = l'.length →
    rle.flatMap (fun p => codeBits cl p.1 ++ natBits (clExtra p.1) p.2) ++ a = rle'.flatMap (fun p => codeBits cl p.1 ++ natBits (clExtra p.1) p.2) ++ b → rle = rle' ∧ a = b
  | [], [], _, _, _, _, _, _, _, _, e => ⟨rfl, by simpa using e⟩
  | [], (s, x) :: r, acc, l, l', _, _, h, h', hl, _ => by
    cases h
    obtain ⟨acc', h1, h2⟩ := Option.bind_eq_some_iff.1 h'
    have := clStep_grows h1
    have := clExpand_grows h2
    omega
  | (s, x) :: r, [], acc, l, l', _, _, h, h', hl, _ => by
    cases h'
    obtain ⟨acc', h1, h2⟩ := Option.bind_eq_some_iff.1 h
    have := clStep_grows h1
    have := clExpand_grows h2
    omega
  | (s, x) :: r, (s', x') :: r', acc, l, l', v, v', h, h', hl, e => by
    obtain ⟨u1, u2⟩ := v (s, x) (by simp)
    obtain ⟨w1, w2⟩ := v' (s', x') (by simp)
    simp only [List.flatMap_cons, List.append_assoc] at e
    obtain ⟨rfl, e1⟩ := code_split hc u1 w1 e
    obtain ⟨rfl, e2⟩ := nat_split u2 w2 e1
    obtain ⟨acc', h1, h2⟩ := Option.bind_eq_some_iff.1 h
    obtain ⟨acc'', h1', h2'⟩ := Option.bind_eq_some_iff.1 h'
    rw [h1] at h1'; cases h1'
    obtain ⟨g1, g2⟩ := rle_split hc (fun p hp => v p (List.mem_cons_of_mem _ hp)) (fun p hp => v' p (List.mem_cons_of_mem _ hp)) h2 h2' hl e2
    rw [g1]
    exact ⟨rfl, g2⟩

theorem cl_split {cl cl' : List Nat} (h : ∀ s, lenOf cl s < 8) (h' : ∀ s, lenOf cl' s < 8) {a b : List Bool} : ∀ {os : List Nat},
    os.flatMap (fun s => natBits 3 (lenOf cl s)) ++ a = os.flatMap (fun s => natBits 3 (lenOf cl' s)) ++ b → (∀ s ∈ os, lenOf cl s = lenOf cl' s) ∧ a = b
  | [], e => ⟨by simp, by simpa using e⟩
  | o :: os, e => by
    simp only [List.flatMap_cons, List.append_assoc] at e
    obtain ⟨g1, g2⟩ := nat_split (h o) (h' o) e
    obtain ⟨g3, g4⟩ := cl_split h h' g2
    exact ⟨fun s hs => (List.mem_cons.1 hs).elim (fun x => x ▸ g1) (g3 s), g4⟩

theorem lenOf_small {cl : List Nat} (h : ∀ l ∈ cl, l < 8) (s : Nat) : lenOf cl s < 8 := by
  unfold lenOf
  rcases hx : cl[s]? with _ | v
  · simp [List.getD, hx]
  · simp only [List.getD, hx]; exact h v (List.mem_of_getElem? hx)

theorem valid_loose {ok : List Nat → Prop} {hd : DynHeader} (h : hd.Valid ok) : hd.Loose ok := by
  obtain ⟨h1, h2, h3, h4, h5⟩ := h
  exact ⟨h1, by omega, h3, by omega, h5⟩

/-- the header of a dynamic block can be read in one way only -/
theorem dyn_split {ok : List Nat → Prop} (hok : ∀ l, ok l → IsCode l) {hd hd' : DynHeader} (h : hd.Loose ok) (h' : hd'.Loose ok) {a b : List Bool} (e : hd.bits ++ a = hd'.bits ++ b) :
    hd = hd' ∧ a = b := by
  obtain ⟨a1, a2, a3, a4, a5, a6, a7, a8, a9, a10, a11, a12, a13, _⟩ := h
  obtain ⟨b1, b2, b3, b4, b5, b6, b7, b8, b9, b10, b11, b12, b13, _⟩ := h'
  rcases hd with ⟨hlit, hdist, hclen, cl, rle, lens⟩
  rcases hd' with ⟨hlit', hdist', hclen', cl', rle', lens'⟩
  simp only [DynHeader.bits, List.append_assoc] at *
  obtain ⟨c1, e1⟩ := nat_split (by omega) (by omega) e
  obtain ⟨c2, e2⟩ := nat_split (by omega) (by omega) e1
  obtain ⟨c3, e3⟩ := nat_split (by omega) (by omega) e2
  clear e e1 e2
  obtain rfl : hlit = hlit' := by omega
  obtain rfl : hdist = hdist' := by omega
  obtain rfl : hclen = hclen' := by omega
  obtain ⟨c4, e4⟩ := cl_split (lenOf_small a8) (lenOf_small b8) e3
  have hcl : cl = cl' := by
    refine List.ext_getElem (by omega) fun i hi hi' => ?_
    have hm : i ∈ clOrder := by
      have : ∀ i < 19, i ∈ clOrder := by decide
      exact this i (by omega)
    rw [← List.take_append_drop hclen clOrder] at hm
    have : lenOf cl i = lenOf cl' i := by
      rcases List.mem_append.1 hm with hm | hm
      · exact c4 i hm
      · rw [a9 i hm, b9 i hm]
    simpa [lenOf, List.getD, hi, hi'] using this
  subst hcl
  obtain ⟨rfl, e5⟩ := rle_split (hok _ a13) a10 b10 a11 b11 (by omega) e4
  rw [a11] at b11
  cases b11
  exact ⟨rfl, e5⟩

end Flate.Proof
