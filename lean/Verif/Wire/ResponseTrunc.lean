import Verif.Wire.ResponseLemmas
/-! # Answers on the wire look only at their own bytes: helper lemmas -/
namespace Nebula
namespace Wire

theorem stab_mapOf {K V : Type} [BEq K] {n : Nat} {rk rk' : Bytes → Option (K × Bytes)} {rv rv' : Bytes → Option (V × Bytes)}
    (hk : Stab n rk rk') (hv : Stab n rv rv') (ct vt : Nat) : Stab n (readMap rk rv ct vt) (readMap rk' rv' ct vt) := by
  have hp : Stab n (seqR rk fun k => fun b => (rv b).map fun x => ((k, x.1), x.2))
      (seqR rk' fun k => fun b => (rv' b).map fun x => ((k, x.1), x.2)) :=
    hk.seq fun k => hv.map fun v => (k, v)
  have hs : ∀ kt vt, Stab n (fun b => match skip (b.length + 1) (elemCt kt) b with
      | none => none | some b => (skip (b.length + 1) (elemCt vt) b).map fun r => ((), r))
      (fun b => match skip (b.length + 1) (elemCt kt) b with
      | none => none | some b => (skip (b.length + 1) (elemCt vt) b).map fun r => ((), r)) := fun kt vt =>
    stab_two (stab_skipLen n (elemCt kt)) (stab_skipLen n (elemCt vt))
  let M (rk : Bytes → Option (K × Bytes)) (rv : Bytes → Option (V × Bytes)) : Nat × Nat × Nat → Bytes → Option (List (K × V) × Bytes) := fun x =>
    if x.2.2 = 0 then fun r => some ([], r)
    else if x.1 = ct ∧ x.2.1 = vt then
      fun r => (readN (seqR rk fun k => fun b => (rv b).map fun x => ((k, x.1), x.2)) x.2.2 r).map fun y =>
        (y.1.foldl (fun m kv => setEntry m kv.1 kv.2) [], y.2)
    else fun r => (readN (fun b => match skip (b.length + 1) (elemCt x.1) b with
      | none => none | some b => (skip (b.length + 1) (elemCt x.2.1) b).map fun r => ((), r)) x.2.2 r).map fun y => ([], y.2)
  have := ((stab_mapHeader n).stab.mono (Nat.le_succ n)).seq (k := M rk rv) (k' := M rk' rv') fun x => by
    simp only [M]
    split
    · exact Stab.ret _
    · split
      · exact (hp.readN x.2.2).map fun y => y.foldl (fun m kv => setEntry m kv.1 kv.2) []
      · exact ((hs x.1 x.2.1).readN x.2.2).map fun _ => []
  have e : ∀ (rk : Bytes → Option (K × Bytes)) (rv : Bytes → Option (V × Bytes)) (bs : Bytes), readMap rk rv ct vt bs =
      seqR (fun bs => (readMapHeader bs).map fun x => ((x.1, x.2.1, x.2.2.1), x.2.2.2)) (M rk rv) bs := by
    intro rk rv bs
    rw [readMap, seqR]
    cases readMapHeader bs with
    | none => rfl
    | some x =>
      obtain ⟨k1, v1, k, r⟩ := x
      simp only [Option.map_some, M]
      by_cases hk : k = 0
      · simp only [hk, if_true]
      · simp only [hk, if_false]
        by_cases ht : k1 = ct ∧ v1 = vt
        · rw [if_pos ht, if_pos ht]
          have : (fun b => match rk b with
              | none => none
              | some (k, b) => match rv b with
                | none => none
                | some (v, b) => some ((k, v), b)) = seqR rk fun k => fun b => (rv b).map fun x => ((k, x.1), x.2) := by
            funext b
            rw [seqR]
            cases rk b with
            | none => rfl
            | some y => obtain ⟨k, b⟩ := y; dsimp only; cases rv b <;> rfl
          refine (congrArg (fun d : Bytes → Option ((K × V) × Bytes) => match readN d k r with
            | none => none
            | some (kvs, r) => some (kvs.foldl (fun (m : List (K × V)) (kv : K × V) => setEntry m kv.1 kv.2) [], r)) this).trans ?_
          cases readN (seqR rk fun k => fun b => (rv b).map fun x => ((k, x.1), x.2)) k r <;> rfl
        · rw [if_neg ht, if_neg ht]
          show (match readN (fun b => match skip (b.length + 1) (elemCt k1) b with
            | none => none | some b => (skip (b.length + 1) (elemCt v1) b).map fun r => ((), r)) k r with
            | none => none | some (_, r) => some ([], r)) = _
          cases readN (fun b => match skip (b.length + 1) (elemCt k1) b with
            | none => none | some b => (skip (b.length + 1) (elemCt v1) b).map fun r => ((), r)) k r <;> rfl
  exact this.congr (e rk rv) (e rk' rv')

theorem stab_struct {σ : Type} {n : Nat} {R R' : Reader (σ × List Nat)} (h : RStab n R R') (req : List Nat) (o : σ) :
    Stab n (readStruct R req o) (readStruct R' req o) := by
  have e : ∀ R : Reader (σ × List Nat), ∀ bs, readStruct R req o bs = seqR (R.read (o, []))
      (fun s r => ((if req.all fun i => s.2.contains i then some s.1 else none).map fun b => (b, r))) bs := by
    intro R bs
    rw [readStruct, seqR]
    cases R.read (o, []) bs with
    | none => rfl
    | some x =>
      obtain ⟨s, r⟩ := x
      simp only
      split <;> rfl
  exact ((stab_read h (o, [])).post _).congr (e R) (e R')

theorem stab_fld {σ α : Type} {n : Nat} {d d' : Bytes → Option (α × Bytes)} (id : Nat) (set : σ → α → σ) (h : Stab n d d') (s : σ × List Nat) :
    Stab n (fld id d set s) (fld id d' set s) := h.block _ s

theorem stab_runBranch : ∀ (f m : Nat) (curr : Int) (s : BranchInfo × List Nat), Stab m (runBranch f curr s) (runBranch m curr s)
  | 0, _, _, _ => by rintro bs a r h; cases h
  | f + 1, m, curr, s => by
    intro bs a r h
    rw [runBranch] at h
    cases hh : readFieldHeader curr bs with
    | none => rw [hh] at h; cases h
    | some x =>
      obtain ⟨x, r0⟩ := x
      obtain ⟨b, c, rfl, hs⟩ := header_stab hh
      rw [hh] at h
      cases x with
      | none =>
        cases h
        refine ⟨b :: c, rfl, fun hl t => ?_⟩
        obtain ⟨m, rfl⟩ : ∃ k, m = k + 1 := ⟨m - 1, by simp at hl; omega⟩
        rw [runBranch, hs t]
      | some y =>
        obtain ⟨id, ct⟩ := y
        simp only at h
        split at h
        · next h1 =>
          obtain ⟨c', rfl, h'⟩ := stab_runBranch f (m - 1) id _ r0 a r h
          refine ⟨b :: c ++ c', by simp, fun hl t => ?_⟩
          simp only [List.length_append, List.length_cons] at hl
          obtain ⟨m, rfl⟩ : ∃ k, m = k + 1 := ⟨m - 1, by omega⟩
          rw [runBranch, List.append_assoc, hs (c' ++ t)]
          simp only [if_pos h1]
          exact h' (by simp; omega) t
        · next h1 =>
          split at h
          · next h2 =>
            cases hi : readI64 r0 with
            | none => rw [hi] at h; cases h
            | some z =>
              obtain ⟨z, r1⟩ := z
              obtain ⟨ci, rfl, hsi⟩ := stab_i64 (r0.length + 1) r0 z r1 hi
              rw [hi] at h
              obtain ⟨c', rfl, h'⟩ := stab_runBranch f (m - 1) id _ r1 a r h
              refine ⟨b :: c ++ (ci ++ c'), by simp, fun hl t => ?_⟩
              simp only [List.length_append, List.length_cons] at hl
              obtain ⟨m, rfl⟩ : ∃ k, m = k + 1 := ⟨m - 1, by omega⟩
              rw [runBranch, List.append_assoc, hs, List.append_assoc]
              simp only [if_neg h1, if_pos h2]
              rw [hsi (by simp; omega)]
              exact h' (by simp; omega) t
          · next h2 =>
            cases hi : skip (r0.length + 1) ct r0 with
            | none => rw [hi] at h; cases h
            | some r1 =>
              obtain ⟨ci, rfl, hsi⟩ := stab_skipLen (r0.length + 1) ct r0 () r1 (by simp [unitR, hi])
              rw [hi] at h
              obtain ⟨c', rfl, h'⟩ := stab_runBranch f (m - 1) id _ r1 a r h
              refine ⟨b :: c ++ (ci ++ c'), by simp, fun hl t => ?_⟩
              simp only [List.length_append, List.length_cons] at hl
              obtain ⟨m, rfl⟩ : ∃ k, m = k + 1 := ⟨m - 1, by omega⟩
              rw [runBranch, List.append_assoc, hs, List.append_assoc]
              simp only [if_neg h1, if_neg h2]
              have := hsi (by simp; omega) (c' ++ t)
              simp only [unitR, Option.map_eq_some_iff, Prod.mk.injEq, true_and, exists_eq_right] at this
              rw [this]
              exact h' (by simp; omega) t

theorem stab_branch (n : Nat) (o : BranchInfo) : Stab n (readBranch o) (readBranch o) := by
  have e : ∀ bs, readBranch o bs = seqR (fun bs => runBranch (bs.length + 1) 0 (o, []) bs)
      (fun s r => ((if [1, 2].all fun i => s.2.contains i then some s.1 else none).map fun b => (b, r))) bs := by
    intro bs
    rw [readBranch, seqR]
    cases runBranch (bs.length + 1) 0 (o, []) bs with
    | none => rfl
    | some x =>
      obtain ⟨s, r⟩ := x
      simp only
      split <;> rfl
  exact ((Stab.len (d := fun f => runBranch f 0 (o, [])) (fun f m => stab_runBranch f m 0 (o, [])) n).post _).congr e e

theorem rstab_auth (n : Nat) : RStab n authReader authReader where
  next := rfl
  label _ := rlabel_some (stab_fld _ _ (stab_i32 n)) <| rlabel_some (stab_fld _ _ (stab_binary n)) <|
    rlabel_some (stab_fld _ _ (stab_i64 n)) <| rlabel_some (stab_fld _ _ (stab_i32 n)) <|
    rlabel_some (stab_fld _ _ (stab_binary n)) rlabel_none

theorem rstab_stats (n : Nat) : RStab n statsReader statsReader where
  next := rfl
  label _ := rlabel_some (stab_fld _ _ (stab_i64 n)) <| rlabel_some (stab_fld _ _ (stab_i64 n)) <|
    rlabel_some (stab_fld _ _ (stab_i64 n)) <| rlabel_some (stab_fld _ _ (stab_mapOf (stab_binary n) (stab_binary n) _ _)) rlabel_none

theorem rstab_pair (n : Nat) : RStab n pairReader pairReader where
  next := rfl
  label _ := rlabel_some (stab_fld _ _ (stab_binary n)) <| rlabel_some (stab_fld _ _ (stab_binary n)) rlabel_none

theorem rstab_node (n : Nat) : RStab n nodeReader nodeReader where
  next := rfl
  label _ := rlabel_some (stab_fld _ _ (stab_binary n)) <| rlabel_some (stab_fld _ _ (stab_i64 n)) <|
    rlabel_some (stab_fld _ _ (stab_binary n)) <|
    rlabel_some (stab_fld _ _ (stab_list (stab_struct (rstab_pair n) _ _) _)) <|
    rlabel_some (stab_fld _ _ (stab_list (stab_struct (rstab_stats n) _ _) _)) <|
    rlabel_some (stab_fld _ _ (stab_branch n _)) <|
    rlabel_some (stab_fld _ _ (stab_list (stab_i64 n) _)) rlabel_none

theorem rstab_plan (n : Nat) : RStab n planReader planReader where
  next := rfl
  label _ := rlabel_some (stab_fld _ _ (stab_list (stab_struct (rstab_node n) _ _) _)) <|
    rlabel_some (stab_fld _ _ (stab_mapOf (stab_i64 n) (stab_i64 n) _ _)) <|
    rlabel_some (stab_fld _ _ (stab_binary n)) <| rlabel_some (stab_fld _ _ (stab_i32 n)) rlabel_none

theorem rstab_exec {n : Nat} {rv rv' : Value → Bytes → Option (Value × Bytes)} (h : ∀ v, Stab n (rv v) (rv' v)) :
    RStab n (execReader rv) (execReader rv') where
  next := rfl
  label _ := rlabel_some (stab_fld _ _ (stab_i32 n)) <| rlabel_some (stab_fld _ _ (stab_i32 n)) <|
    rlabel_some (stab_fld _ _ (stab_read (rstab_dataSet h _) _)) <|
    rlabel_some (stab_fld _ _ (stab_binary n)) <| rlabel_some (stab_fld _ _ (stab_binary n)) <|
    rlabel_some (stab_fld _ _ (stab_struct (rstab_plan n) _ _)) <| rlabel_some (stab_fld _ _ (stab_binary n)) rlabel_none

theorem stab_exec (n : Nat) (o : ExecResponse) : Stab n (deserializeExec o) (deserializeExec o) :=
  Stab.len (d := fun f => readExec (readValue f) o)
    (fun f m => stab_struct (rstab_exec fun v => stab_value f m v) _ o) n

/-- Cut off. -/
theorem stab_cut {α : Type} {d : Bytes → Option (α × Bytes)} (h : ∀ n, Stab n d d) {a : α} {p q : Bytes} (hd : d (p ++ q) = some (a, []))
    (hq : q ≠ []) : d p = none := by
  cases hp : d p with
  | none => rfl
  | some x =>
    obtain ⟨u, r⟩ := x
    obtain ⟨c, rfl, hs⟩ := h (p.length + 1) p u r hp
    have e := hs (by simp; omega) (r ++ q)
    rw [← List.append_assoc, hd] at e
    simp at e
    exact absurd e.2.2 hq

end Wire
end Nebula
