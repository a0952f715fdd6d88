/-
How much a Reader can make of its input: C66.
-/
import Verif.Proof.RRatio
import Verif.Props.ReadCalls

namespace Flate.Props
open Flate.Spec Flate.Model Flate.Model.Rd Flate.Model.Conc Flate.Proof Flate.Proof.R Flate.Proof.Cc

/-- **C66.** Bounded amplification: whatever the input (well-formed, damaged or malicious), however it arrives, whatever the options, the dictionary and the number of
streams, and whenever `Close` takes effect, the data delivered is at most 1032 times as long as the input. -/
theorem C66_ratio {c : RSetup} (h : c.OK) (stop : Nat → Option Nat) (closed : Bool) {src : Src} {s : RState}
    (hr : readThread (c.envStop stop) (start src closed) = .ok ((), s)) : (actData s.out.acts).length ≤ 1032 * src.bytes.length := by
  have hk := rt_thread (E := c.envStop stop) h.lawful h.env.word _ _ _ hr
  unfold Rt made at hk
  simp only [start, Inp.bits, Inp.size, actData, List.length_nil] at hk
  omega

/-- **C66, for calls of `Read`.** Whatever the sizes of the callers' buffers and the schedule, what the calls have returned so far is at most 1032 times as long as the input. -/
theorem C66_calls {c : RSetup} (h : c.OK) {src : Src} {cap n : Nat} {t : St} (hc : 0 < cap) (hh : c.Calls ReadOnly src cap n t) :
    (got t.log).length ≤ 1032 * src.bytes.length := by
  obtain ⟨s, hr, hh⟩ := hh
  have h1 := C66_ratio h (fun _ => none) false hr
  have h2 := C39_prefix hc hh
  rw [← reach_source hh, (good hc readOnly_noReset hh).sc] at h2
  exact Nat.le_trans h2.length_le h1

/-- a static block: the letter `a`, then 258 more of them -/
def bomb : Src := ⟨[], [75, 28, 5, 0], .eof⟩

example : (acts? (readThread (rdemo [.format .raw, .mlevel 1]).env (start bomb false))).map (fun l => (actData l).length) = some 259 := by decide +kernel

/-! ### the bound cannot be improved -/

/-- a dynamic block whose codes are: literal 0, two bits; end of block, two bits; length 258, one bit; distances 1 and 2, one bit -/
def bombHeader : DynHeader where
  hlit := 286
  hdist := 2
  hclen := 18
  cl := [0, 2, 2, 0, 0, 0, 0, 0, 0, 0, 0, 0, 0, 0, 0, 0, 0, 0, 1]
  rle := [(2, 0), (18, 127), (18, 106), (2, 0), (18, 17), (1, 0), (1, 0), (1, 0)]
  lens := [2] ++ List.replicate 255 0 ++ [2] ++ List.replicate 28 0 ++ [1] ++ [1, 1]

instance : DecidablePred IsComplete := fun l => by unfold IsComplete; infer_instance

theorem bombHeader_valid : bombHeader.Valid IsComplete := by unfold DynHeader.Valid Used; decide +kernel

/-- one zero byte and then `m` times 258 copies of the byte before -/
def bombItems (m : Nat) : List Item := .lit 0 :: List.replicate m (.ref 28 0 0 0)

theorem getD_snoc (h : List UInt8) (x : UInt8) : (h ++ [x]).getD ((h ++ [x]).length - 1) 0 = x := by
  simp [List.getD_eq_getElem?_getD]

theorem copy_last (x : UInt8) : ∀ (n : Nat) (h : List UInt8), lzCopy (h ++ [x]) 1 n = h ++ [x] ++ List.replicate n x
  | 0, h => by simp [lzCopy]
  | n + 1, h => by
    rw [lzCopy, getD_snoc, copy_last x n (h ++ [x])]
    simp [List.replicate_succ]

theorem bomb_refs {win : Nat} (hw : 1 ≤ win) : ∀ (m : Nat) (h : List UInt8),
    expand win (h ++ [0]) (List.replicate m (.ref 28 0 0 0)) = some (h ++ [0] ++ List.replicate (258 * m) 0)
  | 0, h => by simp [expand]
  | m + 1, h => by
    rw [List.replicate_succ, expand]
    have hd : refDist 0 0 = 1 := rfl
    have hl : refLen 28 0 = 258 := rfl
    rw [hd, hl, if_pos ⟨hw, by simp⟩, copy_last]
    have h2 : h ++ [0] ++ List.replicate 258 (0 : UInt8) = (h ++ List.replicate 258 0) ++ [0] := by
      rw [List.append_assoc, List.append_assoc]
      rw [show ([0] : List UInt8) = List.replicate 1 0 from rfl, List.replicate_append_replicate, List.replicate_append_replicate]
    rw [h2, bomb_refs hw m, List.append_assoc, List.append_assoc, List.append_assoc]
    rw [show ([0] : List UInt8) = List.replicate 1 0 from rfl]
    simp only [List.replicate_append_replicate]
    rw [show 258 + (1 + 258 * m) = 1 + 258 * (m + 1) by omega]

theorem bomb_expand {win : Nat} (hw : 1 ≤ win) (m : Nat) (h : List UInt8) : expand win h (bombItems m) = some (h ++ List.replicate (258 * m + 1) 0) := by
  unfold bombItems
  rw [expand, bomb_refs hw, List.append_assoc]
  rw [show ([0] : List UInt8) = List.replicate 1 0 from rfl, List.replicate_append_replicate]
  congr 3
  omega

/-- the bits of the block -/
def bombBits (m : Nat) : List Bool := [true, false, true] ++ bombHeader.bits ++ dataBits bombHeader.ll bombHeader.d (bombItems m)

theorem bombBits_length (m : Nat) : (bombBits m).length = 2 * m + 109 := by
  have h1 : ([true, false, true] ++ bombHeader.bits).length = 105 := by decide +kernel
  have h2 : (codeBits bombHeader.ll 256).length = 2 := by decide +kernel
  have h3 : (Item.bits bombHeader.ll bombHeader.d (.lit 0)).length = 2 := by decide +kernel
  have h4 : (Item.bits bombHeader.ll bombHeader.d (.ref 28 0 0 0)).length = 2 := by decide +kernel
  unfold bombBits dataBits bombItems
  rw [List.length_append, h1, List.length_append, h2, List.flatMap_cons, List.length_append, h3, List.length_flatMap, List.map_replicate, h4, List.sum_replicate_nat]
  omega

/-- `n + 14` bytes -/
def bombBytes (n : Nat) : List UInt8 := leBytes (n + 14) (bitsNat (bombBits (4 * n) ++ [false, false, false]))

/-- **C66, the bound cannot be improved.** For every `n` there are `n + 14` bytes from which every Reader (of this format, with any options and dictionary, however
the bytes arrive) makes `1032 * n + 1` bytes. -/
theorem C66_sharp (n : Nat) : (bombBytes n).length = n + 14 ∧
    ∀ {c : RSetup}, c.OK → ∀ {src : Src}, c.Takes .raw src → src.bytes = bombBytes n → c.Delivers src (List.replicate (1032 * n + 1) 0) src.err := by
  refine ⟨leBytes_length _ _, fun {c} h {src} ht hs => C03_complete h ht ?_⟩
  show DeflateOf _ _ _ _
  refine ⟨[], bombBits (4 * n), [false, false, false], c.o.dict.getD [], .nil _ _, ?_, ?_, by simp⟩
  · refine .dynamic bombHeader (bombItems (4 * n)) _ bombHeader_valid ?_ (by unfold Used; decide +kernel) ?_
    · intro i hi
      rcases List.mem_cons.1 hi with rfl | hi
      · show Used _ _; unfold Used; decide +kernel
      · obtain rfl := List.eq_of_mem_replicate hi
        unfold Item.Valid Used; decide +kernel
    · rw [bomb_expand (Nat.one_le_two_pow)]
      congr 3
      omega
  · rw [hs, bombBytes, bytesBits_leBytes]
    have hl := bombBits_length (4 * n)
    generalize bombBits (4 * n) = b at hl ⊢
    rw [show 8 * (n + 14) = (b ++ [false, false, false]).length by rw [List.length_append, hl]; simp; omega, natBits_bitsNat, List.nil_append]

example : (rdemo [.format .raw]).Takes .raw ⟨[], bombBytes 5, .eof⟩ := Or.inl (by decide)
example : (rdemo [.format .raw]).Delivers ⟨[], bombBytes 5, .eof⟩ (List.replicate 5161 0) .eof :=
  (C66_sharp 5).2 (rdemo_ok (by decide)) (Or.inl (by decide)) rfl

end Flate.Props
