/-
Blocks written by the Writer are blocks in the sense of the specification.
-/
import Verif.Proof.WBits
import Verif.Proof.Dyn
import Verif.Proof.Trace
import Verif.Spec.Padding

namespace Flate.Proof
open Flate.Spec Flate.Model

/-! ### bits of the commands -/

/-- commands whose bits do not depend on the position -/
def Plain : Cmd → Prop
  | .ev _ | .bits _ _ => True
  | _ => False

theorem plain_bits {cs : List Cmd} (h : ∀ c ∈ cs, Plain c) (pos : Nat) :
    cmdsBits pos cs = cs.flatMap (cmdBits 0) := by
  induction cs generalizing pos with
  | nil => rfl
  | cons c cs ih =>
    simp only [cmdsBits, List.flatMap_cons]
    rw [ih fun c hc => h c (by simp [hc])]
    congr 1
    have := h c (by simp)
    cases c <;> first | rfl | exact this.elim

theorem natBits_code (lens : List Nat) (s : Nat) : natBits (hcSize lens s) (hcBits lens s) = codeBits lens s := by
  unfold hcSize hcBits
  have : (codeBits lens s).length = lenOf lens s := by simp [codeBits]
  rw [← this, natBits_bitsNat]

theorem extraCmds_bits (n v : Nat) : (extraCmds n v).flatMap (cmdBits 0) = natBits n v := by
  unfold extraCmds
  split
  · rename_i h; subst h; rfl
  · simp [cmdBits]

theorem itemCmds_bits (ll d : List Nat) (i : Item) : (itemCmds ll d i).flatMap (cmdBits 0) = i.bits ll d := by
  cases i with
  | lit b => simp [itemCmds, codeCmd, cmdBits, natBits_code, Item.bits]
  | ref li lx di dx =>
    simp [itemCmds, codeCmd, cmdBits, natBits_code, Item.bits, extraCmds_bits]

theorem dataCmds_bits (ll d : List Nat) (is : List Item) :
    (dataCmds ll d is).flatMap (cmdBits 0) = dataBits ll d is := by
  unfold dataCmds dataBits
  rw [List.flatMap_append]
  congr 1
  · induction is with
    | nil => rfl
    | cons i is ih => simp only [List.flatMap_cons, List.flatMap_append, itemCmds_bits, ih]
  · simp [codeCmd, cmdBits, natBits_code]

theorem xCmds_bits (cl : List Nat) (l : List (Nat × Nat)) : (l.flatMap (xCmds cl)).flatMap (cmdBits 0) =
    l.flatMap fun p => codeBits cl p.1 ++ natBits (clExtra p.1) p.2 := by
  induction l with
  | nil => rfl
  | cons p l ih =>
    simp only [List.flatMap_cons, List.flatMap_append, ih]
    congr 1
    simp [xCmds, codeCmd, cmdBits, natBits_code, extraCmds_bits]

theorem plain_extra {n v : Nat} : ∀ c ∈ extraCmds n v, Plain c := by
  unfold extraCmds; split <;> simp [Plain]

theorem plain_item {ll d : List Nat} {i : Item} : ∀ c ∈ itemCmds ll d i, Plain c := by
  cases i with
  | lit b => simp [itemCmds, codeCmd, Plain]
  | ref li lx di dx =>
    intro c hc
    simp only [itemCmds, List.mem_cons, List.mem_append] at hc
    rcases hc with rfl | hc | rfl | hc
    · trivial
    · exact plain_extra c hc
    · trivial
    · exact plain_extra c hc

theorem plain_data {ll d : List Nat} {is : List Item} : ∀ c ∈ dataCmds ll d is, Plain c := by
  intro c hc
  simp only [dataCmds, List.mem_append, List.mem_flatMap, List.mem_singleton] at hc
  rcases hc with ⟨i, _, hc⟩ | rfl
  · exact plain_item c hc
  · trivial

theorem plain_static {is : List Item} {f : Bool} : ∀ c ∈ staticCmds is f, Plain c := by
  intro c hc
  simp only [staticCmds, List.mem_append, List.mem_cons, List.not_mem_nil, or_false] at hc
  rcases hc with ((rfl | rfl | rfl) | hc) | rfl
  · trivial
  · trivial
  · trivial
  · exact plain_data c hc
  · trivial

theorem plain_dyn {hd : DynHeader} {is : List Item} {f : Bool} : ∀ c ∈ dynCmds hd is f, Plain c := by
  intro c hc
  simp only [dynCmds, List.mem_append, List.mem_cons, List.not_mem_nil, or_false, List.mem_map,
    List.mem_flatMap, xCmds] at hc
  rcases hc with ((((hc | hc) | hc) | rfl) | hc) | rfl
  · rcases hc with rfl | rfl | rfl | rfl | rfl <;> trivial
  · obtain ⟨i, _, rfl⟩ := hc; trivial
  · obtain ⟨p, _, rfl | hc⟩ := hc
    · trivial
    · exact plain_extra c hc
  · trivial
  · exact plain_data c hc
  · trivial

theorem static_bits (is : List Item) (f : Bool) (pos : Nat) :
    cmdsBits pos (staticCmds is f) = [f, true, false] ++ dataBits fixedLL fixedD is := by
  rw [plain_bits plain_static]
  unfold staticCmds
  rw [List.flatMap_append, List.flatMap_append, dataCmds_bits, fixedSizesLL_eq, fixedSizesD_eq]
  cases f <;> simp [cmdBits, natBits]

theorem map_range_getD (l : List Nat) (n : Nat) (h : n ≤ l.length) :
    (List.range n).map (fun i => l.getD i 0) = l.take n := by
  apply List.ext_getElem
  · simp; omega
  · intro i h1 h2
    simp at h1 h2
    rw [List.getElem_map, List.getElem_range, List.getElem_take, List.getD_eq_getElem]

theorem dyn_bits {ok : List Nat → Prop} {hd : DynHeader} (hv : hd.Valid ok) (is : List Item) (f : Bool) (pos : Nat) :
    cmdsBits pos (dynCmds hd is f) = [f, false, true] ++ hd.bits ++ dataBits hd.ll hd.d is := by
  rw [plain_bits plain_dyn]
  unfold dynCmds DynHeader.bits
  have h19 : hd.hclen ≤ clOrder.length := hv.2.2.2.2.2.1
  rw [← map_range_getD clOrder hd.hclen h19]
  simp only [List.flatMap_append, dataCmds_bits, xCmds_bits]
  cases f <;> simp [cmdBits, natBits, List.flatMap_map]

theorem stored_bits {data : List UInt8} (h : data.length < 65536) (f : Bool) (pos : Nat) :
    cmdsBits pos (storedCmds data f) = [f, false, false] ++ padBits (pos + 3) ++ natBits 16 data.length ++
      natBits 16 (65535 - data.length) ++ bytesBits data := by
  have e3 : natBits 3 (if f then 1 else 0) = [f, false, false] := by cases f <;> rfl
  have ha : (pos + 3 + (padBits (pos + 3)).length) % 8 = 0 := by
    unfold padBits; rw [List.length_replicate]; exact padLen_spec _
  have al : ∀ (q v : Nat) (cs : List Cmd), q % 8 = 0 →
      cmdsBits q (.u16 v :: cs) = natBits 16 v ++ cmdsBits (q + 16) cs := by
    intro q v cs hq
    simp [cmdsBits, cmdBits, padBits_aligned hq]
  have al2 : ∀ (q : Nat) (p : List UInt8) (k : EvKind), q % 8 = 0 →
      cmdsBits q [.bytes p, .ev k] = bytesBits p := by
    intro q v cs hq
    simp [cmdsBits, cmdBits, padBits_aligned hq]
  show natBits 3 (if f then 1 else 0) ++ (padBits (pos + (natBits 3 (if f then 1 else 0)).length) ++
    cmdsBits _ _) = _
  rw [e3]
  show [f, false, false] ++ (padBits (pos + 3) ++ cmdsBits (pos + 3 + (padBits (pos + 3)).length) _) = _
  rw [al _ _ _ ha, al _ _ _ (by omega), al2 _ _ _ (by omega), Nat.mod_eq_of_lt h]
  simp

/-! ### sizes of the commands -/

theorem code_ok {lens : List Nat} {W : Nat} (hW : 32 ≤ W) (h : ∀ l ∈ lens, l ≤ 15) (s : Nat) :
    cmdOK W (codeCmd lens s) := by
  have := lenOf_le h s
  show lenOf lens s ≤ W
  omega

theorem extra_ok {n v W : Nat} (h : n ≤ W) : ∀ c ∈ extraCmds n v, cmdOK W c := by
  unfold extraCmds; split
  · simp
  · intro c hc; rw [List.mem_singleton] at hc; subst hc; exact h

theorem getD_le_of_all {l : List Nat} {b : Nat} (h : ∀ x ∈ l, x ≤ b) (i : Nat) : l.getD i 0 ≤ b := by
  rw [List.getD_eq_getElem?_getD]
  cases hi : l[i]? with
  | none => simp
  | some x => exact h x (List.mem_of_getElem? hi)

theorem item_ok {ll d : List Nat} {W : Nat} (hW : 32 ≤ W) (h1 : ∀ l ∈ ll, l ≤ 15) (h2 : ∀ l ∈ d, l ≤ 15)
    (i : Item) : ∀ c ∈ itemCmds ll d i, cmdOK W c := by
  cases i with
  | lit b => intro c hc; rw [itemCmds, List.mem_singleton] at hc; subst hc; exact code_ok hW h1 _
  | ref li lx di dx =>
    have a1 : lenExtra.getD li 0 ≤ 5 := getD_le_of_all (by decide) li
    have a2 : distExtra.getD di 0 ≤ 13 := getD_le_of_all (by decide) di
    intro c hc
    simp only [itemCmds, List.mem_cons, List.mem_append] at hc
    rcases hc with rfl | hc | rfl | hc
    · exact code_ok hW h1 _
    · exact extra_ok (by omega) c hc
    · exact code_ok hW h2 _
    · exact extra_ok (by omega) c hc

theorem data_ok {ll d : List Nat} {W : Nat} (hW : 32 ≤ W) (h1 : ∀ l ∈ ll, l ≤ 15) (h2 : ∀ l ∈ d, l ≤ 15)
    (is : List Item) : ∀ c ∈ dataCmds ll d is, cmdOK W c := by
  intro c hc
  simp only [dataCmds, List.mem_append, List.mem_flatMap, List.mem_singleton] at hc
  rcases hc with ⟨i, _, hc⟩ | rfl
  · exact item_ok hW h1 h2 i c hc
  · exact code_ok hW h1 _

theorem static_ok {W : Nat} (hW : 32 ≤ W) (is : List Item) (f : Bool) : ∀ c ∈ staticCmds is f, cmdOK W c := by
  intro c hc
  simp only [staticCmds, List.mem_append, List.mem_cons, List.not_mem_nil, or_false] at hc
  rcases hc with ((rfl | rfl | rfl) | hc) | rfl
  · trivial
  · show 3 ≤ W; omega
  · trivial
  · rw [fixedSizesLL_eq, fixedSizesD_eq] at hc
    exact data_ok hW fixedLL_complete.1 fixedD_complete.1 is c hc
  · trivial

theorem stored_ok {W : Nat} (hW : 32 ≤ W) (data : List UInt8) (f : Bool) : ∀ c ∈ storedCmds data f, cmdOK W c := by
  intro c hc
  simp only [storedCmds, List.mem_cons, List.not_mem_nil, or_false] at hc
  rcases hc with rfl | rfl | rfl | rfl | rfl | rfl | rfl <;> first | trivial | (show 3 ≤ W; omega)

theorem dyn_ok {W : Nat} (hW : 32 ≤ W) {L : HuffLib} (hL : L.Lawful) {hd : DynHeader}
    (hv : hd.Valid (fun l => L.accepts l = true)) (is : List Item) (f : Bool) :
    ∀ c ∈ dynCmds hd is f, cmdOK W c := by
  obtain ⟨_, _, _, _, _, _, _, h8, _, _, _, _, _, k1, k2⟩ := hv
  have l1 := (hL.accepts_code k1).1
  have l2 := (hL.accepts_code k2).1
  intro c hc
  simp only [dynCmds, List.mem_append, List.mem_cons, List.not_mem_nil, or_false, List.mem_map,
    List.mem_flatMap, xCmds] at hc
  rcases hc with ((((hc | hc) | hc) | rfl) | hc) | rfl
  · rcases hc with rfl | rfl | rfl | rfl | rfl <;> first | trivial | (show _ ≤ W; omega)
  · obtain ⟨i, _, rfl⟩ := hc; show 3 ≤ W; omega
  · obtain ⟨p, _, rfl | hc⟩ := hc
    · exact code_ok hW (fun l hl => by have := h8 l hl; omega) _
    · refine extra_ok ?_ c hc
      unfold clExtra
      split
      · omega
      · split
        · omega
        · split <;> omega
  · trivial
  · exact data_ok hW l1 l2 is c hc
  · trivial

/-! ### the bit counter -/

theorem bcFlush_eq (n : Nat) : bcFlush n = n + padLen n := by unfold bcFlush padLen; split <;> omega

theorem counter_exec {W : Nat} {c : Cmd} (h : cmdOK W c) (n : Nat) :
    exec (bitcounter W) c n = .ok (true, n + (cmdBits n c).length) := by
  cases c with
  | ev k => rfl
  | bits m v => 
    show (if m ≤ W then _ else _) = _
    rw [if_pos (show m ≤ W from h)]; simp [cmdBits]
  | flush => simp [exec, bitcounter, bcFlush_eq, cmdBits, padBits]
  | u16 v => simp [exec, bitcounter, bcFlush_eq, cmdBits, padBits, Nat.add_assoc]
  | bytes p => simp [exec, bitcounter, bcFlush_eq, cmdBits, padBits, Nat.add_assoc, Nat.mul_comm]

/-- the estimate is the number of bits which the same commands emit -/
theorem counter_run {W : Nat} {cs : List Cmd} (h : ∀ c ∈ cs, cmdOK W c) (n : Nat) :
    run (bitcounter W) cs n = .ok (true, n + (cmdsBits n cs).length) := by
  induction cs generalizing n with
  | nil => simp [run, cmdsBits]
  | cons c cs ih =>
    unfold run
    rw [chk_ok (counter_exec (h c (by simp)) n), ih (fun c hc => h c (by simp [hc]))]
    simp [cmdsBits, Nat.add_assoc]

/-! ### block kinds -/

theorem evs_data (ll d : List Nat) (is : List Item) : (dataCmds ll d is).flatMap cmdEvs = [] := by
  rw [List.flatMap_eq_nil_iff]
  intro c hc
  simp only [dataCmds, List.mem_append, List.mem_flatMap, List.mem_singleton] at hc
  rcases hc with ⟨i, _, hc⟩ | rfl
  · have hx : ∀ n v, ∀ c ∈ extraCmds n v, cmdEvs c = [] := by
      intro n v; unfold extraCmds; split <;> simp [cmdEvs]
    cases i with
    | lit b => rw [itemCmds, List.mem_singleton] at hc; subst hc; rfl
    | ref li lx di dx =>
      simp only [itemCmds, List.mem_cons, List.mem_append] at hc
      rcases hc with rfl | hc | rfl | hc
      · rfl
      · exact hx _ _ c hc
      · rfl
      · exact hx _ _ c hc
  · rfl

theorem evs_static (is : List Item) (f : Bool) : BlockTrace f ((staticCmds is f).flatMap cmdEvs) := by
  simp only [staticCmds, List.flatMap_append, evs_data]
  exact BlockTrace.static _

theorem evs_stored (data : List UInt8) (f : Bool) : BlockTrace f ((storedCmds data f).flatMap cmdEvs) :=
  BlockTrace.stored

theorem evs_dyn (hd : DynHeader) (is : List Item) (f : Bool) : BlockTrace f ((dynCmds hd is f).flatMap cmdEvs) := by
  have h1 : ((List.range hd.hclen).map fun i => Cmd.bits 3 (lenOf hd.cl (clOrder.getD i 0))).flatMap cmdEvs = [] := by
    rw [List.flatMap_eq_nil_iff]; intro c hc
    obtain ⟨i, _, rfl⟩ := List.mem_map.1 hc; rfl
  have h2 : (hd.rle.flatMap (xCmds hd.cl)).flatMap cmdEvs = [] := by
    rw [List.flatMap_eq_nil_iff]; intro c hc
    obtain ⟨p, _, hc⟩ := List.mem_flatMap.1 hc
    simp only [xCmds, List.mem_cons] at hc
    rcases hc with rfl | hc
    · rfl
    · unfold extraCmds at hc
      split at hc
      · simp at hc
      · rw [List.mem_singleton] at hc; subst hc; rfl
  simp only [dynCmds, List.flatMap_append, evs_data, h1, h2]
  exact BlockTrace.dynamic _

/-! ### the block writers on the Writer -/

theorem ge32 {W : Nat} (h : W = 32 ∨ W = 64) : 32 ≤ W := by omega

theorem writeStoredBlock_does {s : WState} (h : WInv s) {data : List UInt8} (hd : data.length ≤ 65535) (f : Bool) :
    Does (writeStoredBlock wBW data f) s
      ([f, false, false] ++ padBits ((view s).length + 3) ++ natBits 16 data.length ++
      natBits 16 (65535 - data.length) ++ bytesBits data)
      [.blockBegin .stored f, .blockEnd .stored f] := by
  rw [writeStoredBlock_eq wBW hd, ← stored_bits (by omega)]
  exact run_does _ h (stored_ok (ge32 h.hW) data f)

theorem writeStaticBlock_does {s : WState} (h : WInv s) {ts : List Token} {is : List Item} (ht : ToksAre ts is)
    (f : Bool) : Does (writeStaticBlock wBW ts f) s ([f, true, false] ++ dataBits fixedLL fixedD is)
      ((staticCmds is f).flatMap cmdEvs) := by
  rw [writeStaticBlock_eq wBW ht, ← static_bits is f (view s).length]
  exact run_does _ h (static_ok (ge32 h.hW) is f)

/-- Numbers of bits which the Writer estimates, and what it chooses. -/
theorem compressTokens_cases {L : HuffLib} (hL : L.Lawful) {ts : List Token} {is : List Item} (ht : ToksAre ts is)
    {W : Nat} (hW : 32 ≤ W) :
    ∃ hd : DynHeader, hd.Valid (fun l => L.accepts l = true) ∧ (∀ i ∈ is, i.Valid hd.ll hd.d) ∧ Used hd.ll 256 ∧
      ∀ {σ : Type} (bw : BitWriter σ) (data : List UInt8) (f : Bool) (s : σ),
        compressTokens bw W L data ts f s =
          if data.length * 8 + 35 < (cmdsBits 0 (dynCmds hd is f)).length then writeStoredBlock bw data f s
          else if (cmdsBits 0 (staticCmds is f)).length ≤ (cmdsBits 0 (dynCmds hd is f)).length then
            run bw (staticCmds is f) s
          else run bw (dynCmds hd is f) s := by
  obtain ⟨fLL, fD, e, hc, hv⟩ := study_codes hL ht
  obtain ⟨hd, v, e1, e2, hdyn⟩ := writeDynamicBlock_eq hL hc
  refine ⟨hd, v, by rw [e1, e2]; exact hv, by rw [e1]; exact hc.stop, ?_⟩
  intro σ bw data f s
  unfold compressTokens
  rw [e]
  simp only [lift_ok, Go.pure_bind, physicalNumLLCodes, physicalNumDCodes]
  have c1 : countBits W (fun c => writeDynamicBlock c L (L.sizes 288 fLL) (L.sizes 32 fD) ts f) =
      .ok (cmdsBits 0 (dynCmds hd is f)).length := by
    unfold countBits
    dsimp only
    rw [hdyn (bitcounter W) ht f, counter_run (dyn_ok hW hL v is f)]
    simp
  have c2 : countBits W (fun c => writeStaticBlock c ts f) = .ok (cmdsBits 0 (staticCmds is f)).length := by
    unfold countBits
    dsimp only
    rw [writeStaticBlock_eq (bitcounter W) ht f, counter_run (static_ok hW is f)]
    simp
  rw [c1, c2]
  simp only [lift_ok, Go.pure_bind, hdyn bw ht f, writeStaticBlock_eq bw ht f]
  split
  · rfl
  · split <;> rfl

theorem padZero_stored (pos : Nat) (f : Bool) (n m : Nat) (data : List UInt8) :
    PadZero pos ([f, false, false] ++ padBits (pos + 3) ++ natBits 16 n ++ natBits 16 m ++ bytesBits data) := by
  intro g rest e x hx
  simp only [List.cons_append, List.nil_append, List.append_assoc, List.cons.injEq, true_and] at e
  obtain ⟨-, rfl⟩ := e
  rw [List.take_append_of_le_length (by simp [padBits])] at hx
  have := List.mem_of_mem_take hx
  unfold padBits at this
  exact List.eq_of_mem_replicate this

theorem padZero_static (pos : Nat) (f : Bool) (bs : List Bool) : PadZero pos ([f, true, false] ++ bs) := by
  intro g rest e; simp at e

theorem padZero_dyn (pos : Nat) (f : Bool) (bs : List Bool) : PadZero pos ([f, false, true] ++ bs) := by
  intro g rest e; simp at e

theorem PadZero.mod {pos pos' : Nat} {b : List Bool} (hp : pos % 8 = pos' % 8) (h : PadZero pos b) : PadZero pos' b := by
  intro f rest e x hx
  refine h f rest e x ?_
  have : padLen (pos + 3) = padLen (pos' + 3) := by unfold padLen; rw [show (pos + 3) % 8 = (pos' + 3) % 8 by omega]
  rw [this]
  exact hx

/-- the panic of `writeStoredBlock` -/
def tooLong : Panic := .assert "uncompressed block length exceeds uint16_t"

/-- One data block: correct, announced by the right events, and never longer than storing the data.
The only panic is that of a stored block with too much data. -/
theorem compressTokens_does {L : HuffLib} (hL : L.Lawful) {s : WState} (h : WInv s) {ts : List Token}
    {is : List Item} (ht : ToksAre ts is) (data : List UInt8) (f : Bool) :
    (¬ data.length ≤ 65535 ∧ compressTokens wBW s.W L data ts f s = .error tooLong) ∨
    ∃ bits ks, Does (compressTokens wBW s.W L data ts f) s bits ks ∧ BlockTrace f ks ∧
      bits.length ≤ 8 * data.length + 35 + padLen ((view s).length + 3) ∧ PadZero (view s).length bits ∧
      ∀ win hist, expand win hist is = some (hist ++ data) →
        BlockEnc (fun l => L.accepts l = true) win (view s).length f hist bits (hist ++ data) := by
  obtain ⟨hd, v, hv, hu, hcase⟩ := compressTokens_cases hL ht (ge32 h.hW)
  have hdl' : (cmdsBits 0 (dynCmds hd is f)) = (cmdsBits (view s).length (dynCmds hd is f)) := by
    rw [dyn_bits v, dyn_bits v]
  have hsl' : (cmdsBits 0 (staticCmds is f)) = (cmdsBits (view s).length (staticCmds is f)) := by
    rw [static_bits, static_bits]
  have conv : ∀ {g : Go WState Bool} {bits ks}, compressTokens wBW s.W L data ts f s = g s → Does g s bits ks →
      Does (compressTokens wBW s.W L data ts f) s bits ks := by
    intro g bits ks e ⟨b, t, es, e', r⟩
    exact ⟨b, t, es, by rw [e]; exact e', r⟩
  by_cases c1 : data.length * 8 + 35 < (cmdsBits 0 (dynCmds hd is f)).length
  · by_cases hdl : data.length ≤ 65535
    case neg => exact Or.inl ⟨hdl, by rw [hcase, if_pos c1]; exact writeStoredBlock_panic wBW hdl f s⟩
    refine Or.inr ⟨_, _, conv (by rw [hcase, if_pos c1]) (writeStoredBlock_does h hdl f), BlockTrace.stored, ?_, padZero_stored _ _ _ _ _, ?_⟩
    · simp [padBits]; omega
    · intro win hist _
      exact BlockEnc.stored _ data (by simp [padBits]) (by omega)
  · by_cases c2 : (cmdsBits 0 (staticCmds is f)).length ≤ (cmdsBits 0 (dynCmds hd is f)).length
    · refine Or.inr ⟨_, _, conv (by rw [hcase, if_neg c1, if_pos c2]) (run_does _ h (static_ok (ge32 h.hW) is f)),
        evs_static is f, ?_, by rw [static_bits]; exact padZero_static _ _ _, ?_⟩
      · rw [← hsl']; omega
      · intro win hist hx
        rw [static_bits]
        exact BlockEnc.fixed is _ (fun i hi => valid_fixed (toksAre_range ht i hi)) hx
    · refine Or.inr ⟨_, _, conv (by rw [hcase, if_neg c1, if_neg c2]) (run_does _ h (dyn_ok (ge32 h.hW) hL v is f)),
        evs_dyn hd is f, ?_, by rw [dyn_bits v, List.append_assoc]; exact padZero_dyn _ _ _, ?_⟩
      · rw [← hdl']; omega
      · intro win hist hx
        rw [dyn_bits v]
        exact BlockEnc.dynamic hd is _ v hv hu hx

end Flate.Proof
