/-
The Writer with pools does what the Writer with fresh lists does.
-/
import Verif.Proof.Pool

namespace Flate.Proof.Pool
open Flate Flate.Model Flate.Model.Pool Flate.Spec

variable {σ α β : Type}

/-- alone, starting with memory `m`, `x` has the result of `y` and leaves memory as `M` says -/
def Tri (m : Mem) (x : PGo σ α) (y : Go σ α) (M : Mem → Prop) : Prop := ∀ s, wp (x s) m fun r m' => r = y s ∧ M m'

theorem Tri.lift (x : Go σ α) {m : Mem} {M : Mem → Prop} (h : M m) : Tri m (PGo.lift x) x M := fun _ => ⟨rfl, h⟩

theorem Tri.pure (a : α) {m : Mem} {M : Mem → Prop} (h : M m) : Tri m (Pure.pure a : PGo σ α) (Pure.pure a) M := fun _ => ⟨rfl, h⟩

theorem Tri.bind {x : PGo σ α} {y : Go σ α} {f : α → PGo σ β} {g : α → Go σ β} {m : Mem} {M : Mem → Prop} (hm : M m)
    (h : Tri m x y (· = m)) (h' : ∀ a, Tri m (f a) (g a) M) : Tri m (x >>= f) (y >>= g) M := by
  intro s
  refine wp_bind _ _ (wp_mono ?_ _ (h s))
  rintro r m' ⟨rfl, rfl⟩
  rw [Go.bind_apply]
  cases y s with
  | error e => exact ⟨rfl, hm⟩
  | ok a => exact h' a.1 a.2

theorem Tri.lift_bind {x : Go σ α} {f : α → PGo σ β} {g : α → Go σ β} {m : Mem} {M : Mem → Prop} (hm : M m)
    (h' : ∀ a, Tri m (f a) (g a) M) : Tri m (PGo.lift x >>= f) (x >>= g) M := Tri.bind hm (.lift x rfl) h'

theorem Tri.chk {x x' : PGo σ Bool} {y y' : Go σ Bool} {m : Mem} {M : Mem → Prop} (hm : M m)
    (h : Tri m x y (· = m)) (h' : Tri m x' y' M) : Tri m (PGo.chk x x') (Go.chk y y') M := by
  intro s
  refine wp_bind _ _ (wp_mono ?_ _ (h s))
  rintro r m' ⟨rfl, rfl⟩
  unfold Go.chk
  rcases y s with e | ⟨_ | _, s'⟩
  · exact ⟨rfl, hm⟩
  · exact ⟨rfl, hm⟩
  · exact h' s'

theorem Tri.load {p : Ptr} {f : Cell → PGo σ β} {y : Go σ β} {m : Mem} {M : Mem → Prop} {kd : Kind} {c : Cell} (hp : m p = some (kd, c))
    (h : Tri m (f c) y M) : Tri m (PGo.load p >>= f) y M := fun s => ⟨(kd, c), hp, h s⟩

theorem Tri.store {p : Ptr} {f : Unit → PGo σ β} {y : Go σ β} {m : Mem} {M : Mem → Prop} {kd : Kind} {c c' : Cell} (hp : m p = some (kd, c))
    (h : Tri (m.set p (some (kd, c'))) (f ()) y M) : Tri m (PGo.store p c' >>= f) y M := fun s => ⟨(kd, c), hp, h s⟩

theorem Tri.weaken {x : PGo σ α} {y : Go σ α} {m : Mem} {M M' : Mem → Prop} (h : Tri m x y M) (hM : ∀ m, M m → M' m) : Tri m x y M' :=
  fun s => wp_mono (fun _ _ h => ⟨h.1, hM _ h.2⟩) _ (h s)

theorem Tri.pooled {kd : Kind} {f : Ptr → PGo σ α} {y : Go σ α} {m : Mem}
    (h : ∀ p, m p = none → Tri (m.set p (some (kd, kd.empty))) (f p) y fun m' => ∃ c, m' = m.set p (some (kd, c))) :
    Tri m (PGo.pooled kd f) y (· = m) := by
  intro s p hp
  refine wp_bind _ _ (wp_mono ?_ _ (h p hp s))
  rintro r m' ⟨rfl, c, rfl⟩
  refine ⟨(kd, c), set_self _ _ _, ?_⟩
  rw [set_set]
  refine ⟨set_self _ _ _, rfl, ?_⟩
  rw [set_set, set_back _ hp]

theorem Tri.pooled' {kd : Kind} {f : Ptr → PGo σ α} {y : Go σ α} {m : Mem} {M : Mem → Prop}
    (h : ∀ p, m p = none → Tri (m.set p (some (kd, kd.empty))) (f p) y fun m' => ∃ c, m' p = some (kd, c) ∧ M (m'.set p none)) :
    Tri m (PGo.pooled kd f) y M := by
  intro s p hp
  refine wp_bind _ _ (wp_mono ?_ _ (h p hp s))
  rintro r m' ⟨rfl, c, hc, hM⟩
  refine ⟨(kd, c), hc, set_self _ _ _, rfl, ?_⟩
  rw [set_set]
  exact hM

theorem Tri.forToks {p : Ptr} {kd : Kind} {l : List Token} {m : Mem} (hp : m p = some (kd, .tokens l)) (f : Token → Go σ Bool) :
    ∀ n i, n + i = l.length → Tri m (PGo.forToks p f n i) (forAll f (l.drop i)) (· = m)
  | 0, i, h => by
    rw [List.drop_of_length_le (by omega)]
    exact .pure true rfl
  | n + 1, i, h => by
    have hlt : i < l.length := by omega
    rw [List.drop_eq_getElem_cons hlt]
    refine Tri.chk rfl ?_ (Tri.forToks hp f n (i + 1) (by omega))
    refine Tri.load hp ?_
    have : (Cell.tokens l).toks.getD i makeStopToken = l[i] := by simp [Cell.toks, List.getD, hlt]
    rw [this]
    exact .lift _ rfl

section
variable (bw : BitWriter σ)

theorem storedP {bb : Ptr} {kd : Kind} {data : List UInt8} {m : Mem} (hb : m bb = some (kd, .bytes data)) (isFinal : Bool) :
    Tri m (writeStoredBlockP bw bb data.length isFinal) (writeStoredBlock bw data isFinal) (· = m) := by
  unfold writeStoredBlockP writeStoredBlock
  refine .lift_bind rfl fun _ => ?_
  refine .chk rfl (.lift _ rfl) (.chk rfl (.lift _ rfl) (.chk rfl (.lift _ rfl) (.chk rfl (.lift _ rfl) (.chk rfl (.lift _ rfl) (.chk rfl ?_ (.lift _ rfl))))))
  exact .load hb (.lift _ rfl)

theorem staticP {tok : Ptr} {kd : Kind} {l : List Token} {m : Mem} (ht : m tok = some (kd, .tokens l)) (isFinal : Bool) :
    Tri m (writeStaticBlockP bw tok l.length isFinal) (writeStaticBlock bw l isFinal) (· = m) := by
  unfold writeStaticBlockP writeStaticBlock
  refine .load ht (.lift_bind rfl fun _ => ?_)
  exact .chk rfl (.lift _ rfl) (.chk rfl (.lift _ rfl) (.chk rfl (.lift _ rfl) (.chk rfl (Tri.forToks ht _ _ 0 rfl) (.lift _ rfl))))

theorem dynamicP (L : HuffLib) (sLL sD : List Nat) {tok : Ptr} {kd : Kind} {l : List Token} {m : Mem} (ht : m tok = some (kd, .tokens l)) (isFinal : Bool) :
    Tri m (writeDynamicBlockP bw L sLL sD tok l.length isFinal) (writeDynamicBlock bw L sLL sD l isFinal) (· = m) := by
  unfold writeDynamicBlockP writeDynamicBlock
  refine .load ht (.lift_bind rfl fun _ => ?_)
  refine .chk rfl (.lift _ rfl) (.chk rfl (.lift _ rfl) (.pooled fun x hx => ?_))
  have hne : tok ≠ x := by rintro rfl; rw [ht] at hx; cases hx
  unfold writeTreesP
  have hM : ∀ c, (fun m' => ∃ c, m' = m.set x (some (Kind.tokens, c))) (m.set x (some (Kind.tokens, c))) := fun c => ⟨c, rfl⟩
  refine .load (set_self _ _ _) (.lift_bind (hM _) fun (xt, numLL) => ?_)
  refine .store (set_self _ _ _) ?_
  rw [set_set]
  refine .load (set_self _ _ _) (.lift_bind (hM _) fun (xt, numD) => ?_)
  refine .store (set_self _ _ _) ?_
  rw [set_set]
  refine .load (set_self _ _ _) (.lift_bind (hM _) fun freqX => ?_)
  have ht' : ∀ c, (m.set x (some (Kind.tokens, c))) tok = some (kd, .tokens l) := fun c => by rw [set_ne _ _ hne]; exact ht
  refine .chk (hM _) (.lift _ rfl) (.chk (hM _) (.lift _ rfl) (.chk (hM _) (.lift _ rfl) (.chk (hM _) (.lift _ rfl) (.chk (hM _) ?_
    (.chk (hM _) (.lift _ rfl) (.chk (hM _) (Tri.forToks (ht' _) _ _ 0 rfl) (.lift _ (hM _))))))))
  exact .load (set_self _ _ _) (Tri.forToks (set_self _ _ _) _ _ 0 rfl)

end

theorem countP {W : Nat} {f : BitWriter Nat → PGo Nat Bool} {g : BitWriter Nat → Go Nat Bool} {m : Mem} (h : Tri m (f (bitcounter W)) (g (bitcounter W)) (· = m)) :
    Tri m (countBitsP (σ := σ) W f) (Go.lift (countBits W g)) (· = m) := by
  intro s
  refine wp_bind _ _ (wp_mono ?_ _ (h 0))
  rintro r m' ⟨rfl, rfl⟩
  refine ⟨?_, rfl⟩
  unfold Go.lift countBits
  rcases g (bitcounter W) 0 with e | ⟨b, n⟩ <;> rfl

theorem compressTokensP_tri (bw : BitWriter σ) (W : Nat) (L : HuffLib) {bb tok : Ptr} {data : List UInt8} {l : List Token} {k1 k2 : Kind} {m : Mem}
    (hb : m bb = some (k1, .bytes data)) (ht : m tok = some (k2, .tokens l)) (isFinal : Bool) :
    Tri m (compressTokensP bw W L bb tok isFinal) (compressTokens bw W L data l isFinal) (· = m) := by
  unfold compressTokensP compressTokens
  refine .load hb (.load ht (.load ht (.lift_bind rfl fun (freqLL, freqD) => ?_)))
  refine .bind rfl (countP (dynamicP _ _ _ _ ht isFinal)) fun dl => ?_
  refine .bind rfl (countP (staticP _ ht isFinal)) fun sl => ?_
  show Tri m (if data.length * 8 + 35 < dl then writeStoredBlockP bw bb data.length isFinal
    else if sl ≤ dl then writeStaticBlockP bw tok l.length isFinal else writeDynamicBlockP bw L _ _ tok l.length isFinal)
    (if data.length * 8 + 35 < dl then writeStoredBlock bw data isFinal else if sl ≤ dl then writeStaticBlock bw l isFinal else writeDynamicBlock bw L _ _ l isFinal) _
  by_cases h1 : data.length * 8 + 35 < dl
  · rw [if_pos h1, if_pos h1]
    exact storedP bw hb isFinal
  · rw [if_neg h1, if_neg h1]
    by_cases h2 : sl ≤ dl
    · rw [if_pos h2, if_pos h2]
      exact staticP bw ht isFinal
    · rw [if_neg h2, if_neg h2]
      exact dynamicP bw L _ _ ht isFinal

theorem Prog.bind_assoc {γ : Type} (P : Prog α) (f : α → Prog β) (g : β → Prog γ) : (P.bind f).bind g = P.bind fun a => (f a).bind g := by
  induction P with
  | done b => rfl
  | get kd k ih => simp only [Prog.bind, ih]
  | load p k ih => simp only [Prog.bind, ih]
  | store p c k ih => simp only [Prog.bind, ih]
  | put kd p k ih => simp only [Prog.bind, ih]

theorem PGo.bind_assoc {γ : Type} (x : PGo σ α) (f : α → PGo σ β) (g : β → PGo σ γ) : (x >>= f) >>= g = x >>= fun a => f a >>= g := by
  funext s
  show ((x s).bind _).bind _ = (x s).bind _
  rw [Prog.bind_assoc]
  congr 1
  funext r
  rcases r with e | ⟨a, s'⟩ <;> rfl

theorem tokenLoopP_tri {bb tok : Ptr} (hne : bb ≠ tok) {m : Mem} {M : Mem → Prop} {f : Unit → PGo WState β} {g : List UInt8 × List Token → Go WState β}
    (hM : ∀ b l, M ((m.set bb (some (.bytes, .bytes b))).set tok (some (.tokens, .tokens l))))
    (hf : ∀ b l, Tri ((m.set bb (some (.bytes, .bytes b))).set tok (some (.tokens, .tokens l))) (f ()) (g (b, l)) M) :
    ∀ fuel av b l, Tri ((m.set bb (some (.bytes, .bytes b))).set tok (some (.tokens, .tokens l))) (tokenLoopP bb tok fuel av >>= f) (tokenLoop fuel av b l >>= g) M
  | 0, av, b, l => .lift_bind (x := Go.panic .fuel) (hM _ _) fun (a : Unit) => by
    exact hf b l
  | fuel + 1, av, b, l => by
    have ih := tokenLoopP_tri hne hM hf fuel
    have e1 : ∀ b l, ((m.set bb (some (Kind.bytes, Cell.bytes b))).set tok (some (Kind.tokens, Cell.tokens l))) bb = some (.bytes, .bytes b) :=
      fun b l => by rw [set_ne _ _ hne, set_self]
    have e2 : ∀ b b' l, (((m.set bb (some (Kind.bytes, Cell.bytes b))).set tok (some (Kind.tokens, Cell.tokens l))).set bb (some (Kind.bytes, Cell.bytes b')))
        = ((m.set bb (some (Kind.bytes, Cell.bytes b'))).set tok (some (Kind.tokens, Cell.tokens l))) :=
      fun b b' l => by rw [set_comm _ _ _ (Ne.symm hne), set_set]
    rw [tokenLoopP, tokenLoop]
    by_cases hav : av = 0
    · rw [if_pos hav, if_pos hav]
      exact hf b l
    · rw [if_neg hav, if_neg hav, PGo.bind_assoc, Go.bind_assoc]
      refine .lift_bind (hM _ _) fun (p, mm) => ?_
      rcases mm with _ | ⟨distance, length⟩
      · rcases p with _ | ⟨ch, p⟩
        · exact .lift_bind (x := Go.panic .bounds) (hM _ _) fun (a : Unit) => by
            exact hf b l
        · dsimp only
          rw [PGo.bind_assoc]
          refine .load (e1 _ _) ?_
          rw [PGo.bind_assoc]
          refine .store (e1 _ _) ?_
          rw [e2, PGo.bind_assoc]
          refine .load (set_self _ _ _) ?_
          rw [PGo.bind_assoc]
          refine .store (set_self _ _ _) ?_
          rw [set_set]
          exact ih _ _ _
      · dsimp only
        rw [PGo.bind_assoc, Go.bind_assoc]
        refine .lift_bind (hM _ _) fun _ => ?_
        rw [PGo.bind_assoc, Go.bind_assoc]
        refine .lift_bind (hM _ _) fun _ => ?_
        rw [PGo.bind_assoc]
        refine .load (e1 _ _) ?_
        rw [PGo.bind_assoc]
        refine .store (e1 _ _) ?_
        rw [e2, PGo.bind_assoc, Go.bind_assoc]
        refine .lift_bind (hM _ _) fun t => ?_
        rw [PGo.bind_assoc]
        refine .load (set_self _ _ _) ?_
        rw [PGo.bind_assoc]
        refine .store (set_self _ _ _) ?_
        rw [set_set]
        exact ih _ _ _

theorem compressSlowP_tri (L : HuffLib) (consumeAll : Bool) (m : Mem) : Tri m (compressSlowP L consumeAll) (compressSlow L consumeAll) (· = m) := by
  intro s
  unfold compressSlowP compressSlow
  dsimp only
  split
  · exact ⟨rfl, rfl⟩
  · refine Tri.pooled (fun bb hbb => ?_) s
    refine Tri.pooled' (fun tok htok => ?_)
    have hne : bb ≠ tok := by rintro rfl; rw [set_self] at htok; cases htok
    have htok' : m tok = none := by rwa [set_ne _ _ (Ne.symm hne)] at htok
    have hM : ∀ b l, (fun m' : Mem => ∃ c, m' tok = some (Kind.tokens, c) ∧ ∃ c', m'.set tok none = m.set bb (some (Kind.bytes, c')))
        ((m.set bb (some (.bytes, .bytes b))).set tok (some (.tokens, .tokens l))) := by
      intro b l
      refine ⟨_, set_self _ _ _, .bytes b, ?_⟩
      rw [set_set]
      exact set_back _ (by rw [set_ne _ _ (Ne.symm hne)]; exact htok')
    refine tokenLoopP_tri hne (g := fun x => compressTokens wBW s.W L x.1 (x.2 ++ [makeStopToken]) false) hM (fun b l => ?_) _ _ [] []
    refine .load (set_self _ _ _) (.store (set_self _ _ _) ?_)
    rw [set_set]
    exact (compressTokensP_tri wBW s.W L (by rw [set_ne _ _ hne, set_self]) (set_self _ _ _) false).weaken (fun m' h => h ▸ hM _ _)

theorem compressImplP_tri (L : HuffLib) (consumeAll : Bool) (m : Mem) : Tri m (compressImplP L consumeAll) (compressImpl L consumeAll) (· = m) := by
  intro s
  unfold compressImplP compressImpl
  split
  · exact ⟨rfl, rfl⟩
  · refine Tri.chk (M := (· = m)) rfl (.lift _ rfl) (Tri.chk (M := (· = m)) rfl (.lift _ rfl) (y' := fun s => if usesStore s.o then compressStore consumeAll s else compressSlow L consumeAll s) ?_) s
    intro s
    dsimp only
    by_cases h : usesStore s.o = true
    · rw [if_pos h, if_pos h]; exact ⟨rfl, rfl⟩
    · rw [if_neg h, if_neg h]; exact compressSlowP_tri L consumeAll m s

theorem flushImplP_tri (L : HuffLib) (t : FlushType) (m : Mem) : Tri m (flushImplP L t) (flushImpl L t) (· = m) :=
  .chk rfl (compressImplP_tri L true m) (.lift _ rfl)

theorem writeLoopP_tri (L : HuffLib) (m : Mem) : ∀ fuel p, Tri m (writeLoopP L fuel p) (writeLoop L fuel p) (· = m)
  | 0, p => .lift _ rfl
  | fuel + 1, p => by
    intro s
    rw [writeLoopP, writeLoop]
    split
    · exact ⟨rfl, rfl⟩
    · dsimp only
      refine wp_bind _ _ (wp_mono ?_ _ (compressImplP_tri L _ m _))
      rintro r m' ⟨rfl, rfl⟩
      generalize compressImpl L _ _ = r
      rcases r with e | ⟨_ | _, s'⟩
      · exact ⟨rfl, rfl⟩
      · exact ⟨rfl, rfl⟩
      · exact writeLoopP_tri L m' fuel _ s'

theorem stepOpP_tri (L : HuffLib) (m : Mem) (op : WOp) : Tri m (stepOpP L op) (stepOp L op) (· = m) := by
  intro s
  cases op with
  | write p =>
    simp only [stepOpP, stepOp, wWrite]
    by_cases h1 : s.state = .closed
    · simp only [if_pos h1]; exact ⟨rfl, rfl⟩
    · simp only [if_neg h1]
      by_cases h2 : s.state = .error
      · simp only [if_pos h2]; exact ⟨rfl, rfl⟩
      · simp only [if_neg h2]
        refine wp_bind _ _ (wp_mono ?_ _ (writeLoopP_tri L m _ p s))
        rintro r m' ⟨rfl, rfl⟩
        refine ⟨?_, rfl⟩
        rcases writeLoop L (2 * p.length + 2) p s with e | ⟨_ | _, s'⟩ <;> rfl
  | flush t =>
    simp only [stepOpP, stepOp, wFlush]
    by_cases h1 : s.state = .closed
    · simp only [if_pos h1]; exact ⟨rfl, rfl⟩
    · simp only [if_neg h1]
      by_cases h2 : s.state = .error
      · simp only [if_pos h2]; exact ⟨rfl, rfl⟩
      · simp only [if_neg h2]
        refine wp_bind _ _ (wp_mono ?_ _ (flushImplP_tri L t m s))
        rintro r m' ⟨rfl, rfl⟩
        refine ⟨?_, rfl⟩
        rcases flushImpl L t s with e | ⟨_ | _, s'⟩ <;> rfl
  | setHeader h => exact ⟨rfl, rfl⟩
  | close =>
    simp only [stepOpP, stepOp, wClose]
    by_cases h1 : s.state = .closed
    · simp only [if_pos h1]; exact ⟨rfl, rfl⟩
    · simp only [if_neg h1]
      by_cases h2 : s.state = .error
      · simp only [if_pos h2]; exact ⟨rfl, rfl⟩
      · simp only [if_neg h2]
        refine wp_bind _ _ (wp_mono ?_ _ (flushImplP_tri L .finishFlush m s))
        rintro r m' ⟨rfl, rfl⟩
        refine ⟨?_, rfl⟩
        rcases flushImpl L .finishFlush s with e | ⟨_ | _, s'⟩ <;> rfl

theorem runOpsP_tri (L : HuffLib) (m : Mem) : ∀ ops, Tri m (runOpsP L ops) (runOps L ops) (· = m)
  | [] => fun _ => ⟨rfl, rfl⟩
  | op :: ops => by
    have e : runOps L (op :: ops) = (stepOp L op >>= fun r => runOps L ops >>= fun rs => pure (r :: rs)) := by
      funext s
      rw [runOps, Go.bind_apply]
      rcases h : stepOp L op s with e | ⟨r, s'⟩
      · simp only [h]
      · simp only [h, Go.bind_apply]
        rcases h' : runOps L ops s' with e | ⟨rs, s''⟩ <;> simp only [Go.pure_apply]
    rw [e]
    exact .bind rfl (stepOpP_tri L m op) fun r => .bind rfl (runOpsP_tri L m ops) fun rs => .pure _ rfl

/-- `inputBufferReadStringZ` without a pool -/
def readStringZ {σ : Type} (next : Go σ (Option UInt8)) : Nat → List UInt8 → Go σ (List UInt8 × Bool)
  | 0, _ => Go.panic .fuel
  | n + 1, acc => do
    match ← next with
    | none => pure (acc, false)
    | some ch => if ch = 0 then pure (acc, true) else readStringZ next n (acc ++ [ch])

theorem readStringZP_tri (next : Go σ (Option UInt8)) (fuel : Nat) (m : Mem) : Tri m (readStringZP next fuel) (readStringZ next fuel []) (· = m) := by
  refine Tri.pooled fun bb hbb => ?_
  have hM : ∀ c, (fun m' => ∃ c, m' = m.set bb (some (Kind.bytes, c))) (m.set bb (some (Kind.bytes, c))) := fun c => ⟨c, rfl⟩
  have key : ∀ n acc, Tri (m.set bb (some (Kind.bytes, Cell.bytes acc))) (readStringZP.loop next bb n >>= fun ok => PGo.load bb >>= fun c => pure (c.data, ok))
      (readStringZ next n acc) fun m' => ∃ c, m' = m.set bb (some (Kind.bytes, c)) := by
    intro n
    induction n with
    | zero => intro acc; exact fun s => ⟨rfl, hM _⟩
    | succ n ih =>
      intro acc
      rw [readStringZP.loop, readStringZ, PGo.bind_assoc]
      refine .lift_bind (hM _) fun x => ?_
      rcases x with _ | ch
      · exact .load (set_self _ _ _) (.pure _ (hM _))
      · dsimp only
        by_cases h0 : ch = 0
        · rw [if_pos h0, if_pos h0]
          exact .load (set_self _ _ _) (.pure _ (hM _))
        · rw [if_neg h0, if_neg h0, PGo.bind_assoc]
          refine .load (set_self _ _ _) ?_
          rw [PGo.bind_assoc]
          refine .store (set_self _ _ _) ?_
          rw [set_set]
          exact ih _
  exact key fuel []

end Flate.Proof.Pool
