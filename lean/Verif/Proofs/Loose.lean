import Verif.Proofs.OptTables
/-! Builds without checks: what is written when a symbol has no code, and what a decoder can make of it. -/
namespace Jpeg
open _root_.Spec

/-! ### Writing without codes -/

/-- Without checks every data unit is written, whatever the tables. -/
theorem unitsCan_any {t : HuffPair × HuffPair} {cs : List Component} {ss se : Nat} {E : Coefs}
    (hd : ∀ j, TableOk ((scanCoder t cs ss se E).dcT j)) (ha : ∀ j, TableOk ((scanCoder t cs ss se E).acT j)) (hE : CoefBounds E)
    (hse : se ≤ 63) (us : List DataUnit) (p : Nat → Int)
    (hp : ∀ j, -1024 ≤ p j ∧ p j ≤ 1016) : (scanCoder t cs ss se E).UnitsCan false us p := by
  induction us generalizing p with
  | nil => trivial
  | cons u us ih =>
    refine ⟨?_, ih _ ?_⟩
    · have hdc := hE.dc ((scanCoder t cs ss se E).comp u.1) u.2.1 u.2.2
      have hpj := hp u.1
      have hdiff : ((scanCoder t cs ss se E).dc u - p u.1).natAbs ≤ 2047 := by
        have : (scanCoder t cs ss se E).dc u = E ((scanCoder t cs ss se E).comp u.1) u.2.1 u.2.2 0 := rfl
        omega
      refine ⟨fun _ => hdiff, fun _ h => absurd h (by simp), fun _ => hd _, fun h => absurd h (by simp), ?_, fun _ => ha _⟩
      intro v hv
      simp only [Coder.band, List.mem_map, List.mem_range] at hv
      obtain ⟨i, hi, rfl⟩ := hv
      have hf : 1 ≤ (scanCoder t cs ss se E).first := by simp [Coder.first]
      have hn : (scanCoder t cs ss se E).n = se + 1 - (scanCoder t cs ss se E).first := rfl
      have := hE.ac ((scanCoder t cs ss se E).comp u.1) u.2.1 u.2.2 ((scanCoder t cs ss se E).first + i) (by omega) (by omega)
      show (E _ _ _ _).natAbs ≤ _
      omega
    · intro j
      unfold Coder.nextPreds
      split
      · unfold upd
        split
        · exact hE.dc _ _ _
        · exact hp j
      · exact hp j

theorem scans_mem {cs : List Component} (m : Mode) : ∀ sd ∈ m.scans cs, ∀ c ∈ sd.cs, c ∈ cs := by
  intro sd hsd c hc
  cases m with
  | interleaved =>
    simp only [Mode.scans, List.mem_singleton] at hsd
    subst hsd
    exact hc
  | sequential =>
    simp only [Mode.scans, List.mem_map] at hsd
    obtain ⟨c', h', rfl⟩ := hsd
    rw [List.mem_singleton] at hc
    exact hc ▸ h'
  | progressive n =>
    simp only [Mode.scans, List.mem_append, List.mem_map, List.mem_flatMap] at hsd
    rcases hsd with ⟨c', h', rfl⟩ | ⟨b, -, c', h', rfl⟩ <;>
    · rw [List.mem_singleton] at hc
      exact hc ▸ h'

/-- Tables that can be put in a file are all that is needed to write an image without checks. -/
theorem writable_any {op : Operations} {F : List Int → List Int} (hop : OpOk op F) {e : Encoder} (hwf : e.Wf) {image : ImageBuffer}
    (P : Nat → Nat → Nat → UInt8) {t : HuffPair × HuffPair} (ht : TabsOk (initComponents e.samplingFactor image.colorType).length t) :
    Writable false e F image P t := by
  obtain ⟨hg, -⟩ := initComponents_grid e.samplingFactor image.colorType
  refine ⟨ht, ?_⟩
  intro sd hsd g _
  have hse := scans_se hg.ok (hwf.mode_ok false (by simp) image.colorType) sd hsd
  have hsub := scans_mem e.mode sd hsd
  have hdest := init_dest e.samplingFactor image.colorType
  refine unitsCan_any ?_ ?_ (coefs_bounds hop P) hse _ _ (by intro j; omega)
  · intro j
    show TableOk (tabOf t _).dc
    cases hj : sd.cs[j]? with
    | none => exact ht.dc0.ok
    | some c =>
      have hc := hsub c (List.mem_of_getElem? hj)
      show TableOk (tabOf t c.dcHuffmanTable).dc
      rcases hdest c hc with ⟨h0, -⟩ | h3
      · rw [h0]; exact ht.dc0.ok
      · unfold tabOf
        split
        · exact ht.dc0.ok
        · exact (ht.dc1 h3).ok
  · intro j
    show TableOk (tabOf t _).ac
    cases hj : sd.cs[j]? with
    | none => exact ht.ac0.ok
    | some c =>
      have hc := hsub c (List.mem_of_getElem? hj)
      show TableOk (tabOf t c.acHuffmanTable).ac
      rcases hdest c hc with ⟨-, h0⟩ | h3
      · rw [h0]; exact ht.ac0.ok
      · unfold tabOf
        split
        · exact ht.ac0.ok
        · exact (ht.ac1 h3).ok

/-! ### What a decoder can make of a restart interval -/

theorem decode_mem {t : HuffTable} {bits rest : Bits} {s : Nat} (h : t.decode bits = some (s, rest)) : s ∈ t.values := by
  unfold HuffTable.decode at h
  cases hf : t.codes.find? fun e => isPrefix e.1 bits with
  | none => rw [hf] at h; simp at h
  | some e =>
    rw [hf] at h
    simp only [Option.map_some, Option.some.injEq, Prod.mk.injEq] at h
    have := List.mem_of_find?_eq_some hf
    unfold HuffTable.codes at this
    rw [← h.1]
    exact (List.of_mem_zip this).2

theorem category_extend {v s : Nat} (h : v < 2 ^ s) : category (extend v s) = s := by
  unfold extend
  cases s with
  | zero =>
    have : v = 0 := by simpa using h
    subst this
    simp [category]
  | succ s =>
    rw [Nat.add_sub_cancel]
    have hp : (2 : Nat) ^ (s + 1) = 2 * 2 ^ s := by rw [Nat.pow_succ]; omega
    have hpz : (2 : Int) ^ (s + 1) = ((2 ^ (s + 1) : Nat) : Int) := by norm_cast
    unfold category
    by_cases hv : v < 2 ^ s
    · rw [if_pos hv, hpz, hp, if_neg (by omega)]
      congr 1
      rw [Nat.log2_eq_iff (by omega)]
      omega
    · rw [if_neg hv]
      have h0 : 0 < 2 ^ s := Nat.two_pow_pos s
      rw [if_neg (by omega)]
      congr 1
      rw [Nat.log2_eq_iff (by omega)]
      omega

theorem receive_lt {n v : Nat} {bits rest : Bits} (h : receive n bits = some (v, rest)) : v < 2 ^ n := by
  unfold receive at h
  split at h
  · rename_i hn
    simp only [Option.some.injEq, Prod.mk.injEq] at h
    have := ofBits_lt (bits.take n)
    rw [List.length_take, Nat.min_eq_left hn] at this
    omega
  · cases h

/-- A decoded difference has the category of a symbol of the table. -/
theorem decodeDiff_category {t : HuffTable} {bits rest : Bits} {v : Int} (h : decodeDiff t bits = some (v, rest)) : category v ∈ t.values := by
  unfold decodeDiff at h
  simp only [Option.bind_eq_bind] at h
  obtain ⟨⟨s, b1⟩, h1, h⟩ := Option.bind_eq_some_iff.mp h
  dsimp only at h
  split at h
  · obtain ⟨⟨x, b2⟩, h2, h⟩ := Option.bind_eq_some_iff.mp h
    simp only [Option.some.injEq, Prod.mk.injEq] at h
    rw [← h.1, category_extend (receive_lt h2)]
    exact decode_mem h1
  · cases h

section
variable {env : ScanEnv} {sc : ScanComp} (hcomps : env.scan.comps = [sc])

theorem store_other {m : Coefs} {c y x start : Nat} {vals : List Int} {c' y' x' k : Nat} (h : ¬ (c' = c ∧ y' = y ∧ x' = x)) :
    store m c y x start vals c' y' x' k = m c' y' x' k := by
  unfold store
  rw [if_neg (by tauto)]

include hcomps in
/-- One data unit of a scan of one component that includes the DC coefficients. -/
theorem decodeUnit_inv (h0 : env.scan.ss = 0) {T : HuffTable} (hT : env.dc sc.td = some T) {st st' : IntervalState} {u : DataUnit}
    (h : decodeUnit env st u = some st') :
    (∃ diff, category diff ∈ T.values ∧ st'.coefs sc.comp u.2.1 u.2.2 0 = st.preds u.1 + diff) ∧
      ∀ c y x k, ¬ (c = sc.comp ∧ y = u.2.1 ∧ x = u.2.2) → st'.coefs c y x k = st.coefs c y x k := by
  unfold decodeUnit at h
  simp only [Option.bind_eq_bind] at h
  obtain ⟨sc', hsc, h⟩ := Option.bind_eq_some_iff.mp h
  have hs : sc' = sc := by
    rw [hcomps] at hsc
    have := List.mem_of_getElem? hsc
    simpa using this
  subst hs
  rw [if_pos h0] at h
  obtain ⟨T', hT', h⟩ := Option.bind_eq_some_iff.mp h
  rw [hT] at hT'
  obtain rfl := Option.some.inj hT'
  obtain ⟨⟨diff, b1⟩, hdiff, h⟩ := Option.bind_eq_some_iff.mp h
  obtain ⟨st1, h1, h⟩ := Option.bind_eq_some_iff.mp h
  simp only [Option.some.injEq] at h1
  have hc := decodeDiff_category hdiff
  have hst : st'.coefs sc'.comp u.2.1 u.2.2 0 = st1.coefs sc'.comp u.2.1 u.2.2 0 ∧
      ∀ c y x k, ¬ (c = sc'.comp ∧ y = u.2.1 ∧ x = u.2.2) → st'.coefs c y x k = st1.coefs c y x k := by
    have hfirst : ∀ vals, store st1.coefs sc'.comp u.2.1 u.2.2 (max env.scan.ss 1) vals sc'.comp u.2.1 u.2.2 0 =
        st1.coefs sc'.comp u.2.1 u.2.2 0 := by
      intro vals
      unfold store
      rw [if_neg (by omega)]
    split at h
    · obtain rfl := Option.some.inj h
      exact ⟨rfl, fun _ _ _ _ _ => rfl⟩
    · split at h
      · obtain rfl := Option.some.inj h
        exact ⟨hfirst _, fun c y x k hn => store_other hn⟩
      · obtain ⟨Ta, -, h⟩ := Option.bind_eq_some_iff.mp h
        obtain ⟨r, -, h⟩ := Option.bind_eq_some_iff.mp h
        obtain rfl := Option.some.inj h
        exact ⟨hfirst _, fun c y x k hn => store_other hn⟩
  subst h1
  refine ⟨⟨diff, hc, ?_⟩, ?_⟩
  · rw [hst.1]
    simp [store]
  · intro c y x k hn
    rw [hst.2 c y x k hn]
    exact store_other hn

include hcomps in
theorem decodeUnits_other (h0 : env.scan.ss = 0) {T : HuffTable} (hT : env.dc sc.td = some T) (us : List DataUnit) {st st' : IntervalState}
    (h : decodeUnits env us st = some st') {c y x k : Nat} (hn : ∀ u ∈ us, ¬ (c = sc.comp ∧ y = u.2.1 ∧ x = u.2.2)) :
    st'.coefs c y x k = st.coefs c y x k := by
  induction us generalizing st with
  | nil =>
    simp only [decodeUnits, Option.some.injEq] at h
    rw [h]
  | cons u us ih =>
    simp only [decodeUnits] at h
    obtain ⟨st1, h1, h⟩ := Option.bind_eq_some_iff.mp h
    rw [ih h fun v hv => hn v (by simp [hv])]
    exact (decodeUnit_inv hcomps h0 hT h1).2 c y x k (hn u (by simp))

theorem decodeInterval_units {us : List DataUnit} {data : Bytes} {m m' : Coefs} (h : decodeInterval env us data m = some m') :
    ∃ st', decodeUnits env us ⟨bytesToBits data, fun _ => 0, 0, m⟩ = some st' ∧ st'.coefs = m' := by
  unfold decodeInterval at h
  simp only [Option.bind_eq_bind] at h
  obtain ⟨st', h1, h⟩ := Option.bind_eq_some_iff.mp h
  split at h
  · exact ⟨st', h1, Option.some.inj h⟩
  · cases h

include hcomps in
/-- The first DC coefficient of a restart interval. -/
theorem decodeInterval_head (h0 : env.scan.ss = 0) {T : HuffTable} (hT : env.dc sc.td = some T) {u : DataUnit} {us : List DataUnit}
    (hnd : ∀ v ∈ us, ¬ (v.2.1 = u.2.1 ∧ v.2.2 = u.2.2)) {data : Bytes} {m m' : Coefs} (h : decodeInterval env (u :: us) data m = some m') :
    category (m' sc.comp u.2.1 u.2.2 0) ∈ T.values := by
  obtain ⟨st', h1, rfl⟩ := decodeInterval_units h
  simp only [decodeUnits] at h1
  obtain ⟨st1, h2, h3⟩ := Option.bind_eq_some_iff.mp h1
  obtain ⟨⟨diff, hd, he⟩, -⟩ := decodeUnit_inv hcomps h0 hT h2
  rw [decodeUnits_other hcomps h0 hT us h3 (by
    rintro v hv ⟨-, h4, h5⟩
    exact hnd v hv ⟨h4.symm, h5.symm⟩), he]
  simpa using hd

include hcomps in
theorem decodeIntervals_other (h0 : env.scan.ss = 0) {T : HuffTable} (hT : env.dc sc.td = some T) (gs : List (List DataUnit)) {n : Nat}
    {m m' : Coefs} {bytes rest : Bytes} (h : decodeIntervals env gs n m bytes = some (m', rest)) {c y x k : Nat}
    (hn : ∀ g ∈ gs, ∀ u ∈ g, ¬ (c = sc.comp ∧ y = u.2.1 ∧ x = u.2.2)) : m' c y x k = m c y x k := by
  induction gs generalizing n m bytes with
  | nil => simp [decodeIntervals] at h
  | cons g gs ih =>
    have one : ∀ m1, decodeInterval env g (ecs bytes).1 m = some m1 → m1 c y x k = m c y x k := by
      intro m1 h1
      obtain ⟨st', h2, rfl⟩ := decodeInterval_units h1
      exact decodeUnits_other hcomps h0 hT g h2 (hn g (by simp))
    unfold decodeIntervals at h
    cases h1 : decodeInterval env g (ecs bytes).1 m with
    | none => rw [h1] at h; cases h
    | some m1 =>
      rw [h1] at h
      cases gs with
      | nil =>
        simp only [Option.some.injEq, Prod.mk.injEq] at h
        rw [← h.1]
        exact one m1 h1
      | cons g' gs =>
        dsimp only at h
        split at h
        · split at h
          · rw [ih h fun g hg => hn g (by simp [hg])]
            exact one m1 h1
          · cases h
        · cases h

include hcomps in
/-- The first DC coefficients of all restart intervals. -/
theorem decodeIntervals_heads (h0 : env.scan.ss = 0) {T : HuffTable} (hT : env.dc sc.td = some T) (gs : List (List DataUnit)) {n : Nat}
    {m m' : Coefs} {bytes rest : Bytes} (h : decodeIntervals env gs n m bytes = some (m', rest))
    (hnd : (gs.flatten.map fun u : DataUnit => u.2).Nodup) : ∀ g ∈ gs, ∀ u, g.head? = some u → category (m' sc.comp u.2.1 u.2.2 0) ∈ T.values := by
  induction gs generalizing n m bytes with
  | nil => simp
  | cons g gs ih =>
    rw [List.flatten_cons, List.map_append, List.nodup_append] at hnd
    obtain ⟨n1, n2, n3⟩ := hnd
    have one : ∀ m1, decodeInterval env g (ecs bytes).1 m = some m1 → ∀ u, g.head? = some u → category (m1 sc.comp u.2.1 u.2.2 0) ∈ T.values := by
      intro m1 h1 u hu
      cases g with
      | nil => cases hu
      | cons v us =>
        obtain rfl := Option.some.inj hu
        rw [List.map_cons, List.nodup_cons] at n1
        refine decodeInterval_head hcomps h0 hT ?_ h1
        rintro w hw ⟨e1, e2⟩
        exact n1.1 (List.mem_map.mpr ⟨w, hw, Prod.ext e1 e2⟩)
    unfold decodeIntervals at h
    cases h1 : decodeInterval env g (ecs bytes).1 m with
    | none => rw [h1] at h; cases h
    | some m1 =>
      rw [h1] at h
      cases gs with
      | nil =>
        simp only [Option.some.injEq, Prod.mk.injEq] at h
        intro g2 hg2 u hu
        rw [List.mem_singleton] at hg2
        subst hg2
        rw [← h.1]
        exact one m1 h1 u hu
      | cons g' gs =>
        dsimp only at h
        split at h
        · split at h
          · intro g2 hg2 u hu
            rcases List.mem_cons.mp hg2 with rfl | hg2
            · rw [decodeIntervals_other hcomps h0 hT _ h (by
                rintro g3 hg3 v hv ⟨-, e1, e2⟩
                refine n3 u.2 (List.mem_map.mpr ⟨u, List.mem_of_head? hu, rfl⟩) v.2
                  (List.mem_map.mpr ⟨v, List.mem_flatten.mpr ⟨g3, hg3, hv⟩, rfl⟩) (Prod.ext e1 e2))]
              exact one m1 h1 u hu
            · exact ih h n2 g2 hg2 u hu
          · cases h
        · cases h

/-- A scan does not change the DC coefficients of a component it does not code. -/
theorem decodeUnit_keep {c : Nat} (hk : env.scan.ss > 0 ∨ ∀ sc ∈ env.scan.comps, sc.comp ≠ c) {st st' : IntervalState} {u : DataUnit}
    (h : decodeUnit env st u = some st') (y x : Nat) : st'.coefs c y x 0 = st.coefs c y x 0 := by
  unfold decodeUnit at h
  simp only [Option.bind_eq_bind] at h
  obtain ⟨sc', hsc, h⟩ := Option.bind_eq_some_iff.mp h
  have hmem := List.mem_of_getElem? hsc
  have hfirst : ∀ (m : Coefs) vals, store m sc'.comp u.2.1 u.2.2 (max env.scan.ss 1) vals c y x 0 = m c y x 0 := by
    intro m vals
    unfold store
    rw [if_neg (by omega)]
  have htail : ∀ st1 : IntervalState, (if env.scan.se + 1 - max env.scan.ss 1 = 0 then some st1
      else if st1.eobrun > 0 then some { st1 with
        eobrun := st1.eobrun - 1
        coefs := store st1.coefs sc'.comp u.2.1 u.2.2 (max env.scan.ss 1) (List.replicate (env.scan.se + 1 - max env.scan.ss 1) 0) }
      else (env.ac sc'.ta).bind fun t => (decodeAc env.progressive t 64 (env.scan.se + 1 - max env.scan.ss 1) st1.bits).bind fun r =>
        some { st1 with bits := r.2.2, eobrun := r.2.1, coefs := store st1.coefs sc'.comp u.2.1 u.2.2 (max env.scan.ss 1) r.1 }) = some st' →
      st'.coefs c y x 0 = st1.coefs c y x 0 := by
    intro st1 h
    split at h
    · obtain rfl := Option.some.inj h
      rfl
    · split at h
      · obtain rfl := Option.some.inj h
        exact hfirst _ _
      · obtain ⟨Ta, -, h⟩ := Option.bind_eq_some_iff.mp h
        obtain ⟨r, -, h⟩ := Option.bind_eq_some_iff.mp h
        obtain rfl := Option.some.inj h
        exact hfirst _ _
  split at h
  · rename_i hs0
    have hne := (hk.resolve_left (by omega)) sc' hmem
    obtain ⟨T', -, h⟩ := Option.bind_eq_some_iff.mp h
    obtain ⟨r, -, h⟩ := Option.bind_eq_some_iff.mp h
    obtain ⟨st1, h1, h⟩ := Option.bind_eq_some_iff.mp h
    obtain rfl := Option.some.inj h1
    rw [htail _ h]
    exact store_other fun he => hne he.1.symm
  · obtain ⟨st1, h1, h⟩ := Option.bind_eq_some_iff.mp h
    obtain rfl := Option.some.inj h1
    exact htail _ h

theorem decodeIntervals_keep {c : Nat} (hk : env.scan.ss > 0 ∨ ∀ sc ∈ env.scan.comps, sc.comp ≠ c) (gs : List (List DataUnit)) {n : Nat}
    {m m' : Coefs} {bytes rest : Bytes} (h : decodeIntervals env gs n m bytes = some (m', rest)) (y x : Nat) : m' c y x 0 = m c y x 0 := by
  induction gs generalizing n m bytes with
  | nil => simp [decodeIntervals] at h
  | cons g gs ih =>
    have one : ∀ m1, decodeInterval env g (ecs bytes).1 m = some m1 → m1 c y x 0 = m c y x 0 := by
      intro m1 h1
      obtain ⟨st', h2, rfl⟩ := decodeInterval_units h1
      have all : ∀ (us : List DataUnit) (st st' : IntervalState), decodeUnits env us st = some st' → st'.coefs c y x 0 = st.coefs c y x 0 := by
        intro us
        induction us with
        | nil =>
          intro st st' h
          obtain rfl := Option.some.inj h
          rfl
        | cons u us ih =>
          intro st st' h
          obtain ⟨st1, h1, h⟩ := Option.bind_eq_some_iff.mp h
          rw [ih _ _ h, decodeUnit_keep hk h1]
      exact all g _ _ h2
    unfold decodeIntervals at h
    cases h1 : decodeInterval env g (ecs bytes).1 m with
    | none => rw [h1] at h; cases h
    | some m1 =>
      rw [h1] at h
      cases gs with
      | nil =>
        simp only [Option.some.injEq, Prod.mk.injEq] at h
        rw [← h.1]
        exact one m1 h1
      | cons g' gs =>
        dsimp only at h
        split at h
        · split at h
          · rw [ih h]
            exact one m1 h1
          · cases h
        · cases h

/-- The decoder reads exactly the intervals that were written. -/
theorem decodeIntervals_rest (C : Coder) (gs : List (List DataUnit)) {n : Nat} {m m' : Coefs} {c : UInt8} (hc : c ≠ 0) {rest rest' : Bytes}
    (h : decodeIntervals env gs n m (C.intervalsBytes gs n ++ 0xFF :: c :: rest) = some (m', rest')) : rest' = 0xFF :: c :: rest := by
  induction gs generalizing n m with
  | nil => simp [decodeIntervals] at h
  | cons g gs ih =>
    cases gs with
    | nil =>
      simp only [Coder.intervalsBytes, decodeIntervals] at h
      rw [ecs_stuff _ c hc] at h
      dsimp only at h
      split at h
      · cases h
      · simp only [Option.some.injEq, Prod.mk.injEq] at h
        exact h.2.symm
    | cons g' gs =>
      have h8 : (0xD0 + n % 8 : Nat) < 256 := by omega
      have hc' : u8 (0xD0 + n % 8) ≠ 0 := by
        intro h
        have := congrArg UInt8.toNat h
        rw [u8_toNat h8] at this
        simp at this
      have e1 : C.intervalsBytes (g :: g' :: gs) n ++ 0xFF :: c :: rest =
          stuff (packBits (C.unitsBits g fun _ => 0)) ++ 0xFF :: u8 (0xD0 + n % 8) ::
            (C.intervalsBytes (g' :: gs) (n + 1) ++ 0xFF :: c :: rest) := by
        simp only [Coder.intervalsBytes, Coder.rstMarker, List.append_assoc, List.cons_append, List.nil_append]
      rw [e1, decodeIntervals, ecs_stuff _ _ hc'] at h
      dsimp only at h
      split at h
      · cases h
      · rename_i m1 _
        change (if (u8 (0xD0 + n % 8)).toNat = 0xD0 + n % 8 then decodeIntervals env (g' :: gs) (n + 1) m1
          (C.intervalsBytes (g' :: gs) (n + 1) ++ 0xFF :: c :: rest) else none) = _ at h
        rw [if_pos (u8_toNat h8)] at h
        exact ih h

end

/-! ### What a decoder can make of the scans -/

theorem intervals_head {α : Type} {n : Nat} {l : List α} {j : Nat} {a : α} (h : l[j * n]? = some a) : ∃ g ∈ intervals n l, g.head? = some a := by
  unfold intervals
  by_cases h0 : n = 0
  · subst h0
    rw [if_pos rfl]
    exact ⟨l, by simp, by rw [List.head?_eq_getElem?]; simpa using h⟩
  · rw [if_neg h0]
    change ∃ g ∈ grp n l, _
    induction j generalizing l with
    | zero =>
      by_cases hl : l.length ≤ n
      · rw [grp_short hl]
        exact ⟨l, by simp, by rw [List.head?_eq_getElem?]; simpa using h⟩
      · rw [grp_long (by omega) (by omega)]
        refine ⟨l.take n, by simp, ?_⟩
        rw [List.head?_eq_getElem?, List.getElem?_take, if_pos (by omega)]
        simpa using h
    | succ j ih =>
      have hlt := (List.getElem?_eq_some_iff.mp h).1
      have hm : (j + 1) * n = n + j * n := by rw [Nat.add_mul]; omega
      rw [grp_long (by omega) (by omega)]
      obtain ⟨g, hg, hh⟩ := ih (l := l.drop n) (by rw [List.getElem?_drop, ← hm]; exact h)
      exact ⟨g, by simp [hg], hh⟩

theorem raster_nodup (rows cols : Nat) : (raster rows cols).Nodup := by
  unfold raster
  rw [List.nodup_flatMap]
  refine ⟨fun y _ => List.Nodup.map (fun a b h => by simpa using h) List.nodup_range, ?_⟩
  refine List.Pairwise.imp ?_ List.nodup_range
  intro a b hab
  rw [Function.onFun, List.disjoint_left]
  intro p h1 h2
  simp only [List.mem_map] at h1 h2
  obtain ⟨x, -, rfl⟩ := h1
  obtain ⟨x', -, h2⟩ := h2
  simp only [Prod.mk.injEq] at h2
  exact hab h2.1.symm

/-- Every restart interval decoded so far starts with a category of the table. -/
def StartsIn (d : Dec) (f : Frame) (cs : List Component) (t : HuffPair × HuffPair) (ri : Nat) : Prop :=
  ∀ c ∈ cs, d.coded c.id 0 = true → ∀ j p, (raster (f.blocksHigh c.frame) (f.blocksWide c.frame))[j * ri]? = some p →
    category (d.coefs c.id p.1 p.2 0) ∈ (tabOf t c.dcHuffmanTable).dc.values

theorem scan_loose {strict : Bool} {d d'' : Dec} {f : Frame} {cs : List Component} {t : HuffPair × HuffPair} {ri : Nat} (hcs : CompsOk cs)
    (hr : Ready d f cs t ri) (hin : StartsIn d f cs t ri) {c : Component} (hc : c ∈ cs) {ss se : Nat} (hss : ss < 256) (hse : se < 256) {E : Coefs}
    {rest : Bytes} (hrest : MarkerStart rest) {fuel : Nat}
    (h : segments strict true fuel d ((ScanDesc.mk [c] ss se).bytes f t E ri ++ rest) = some d'') :
    ∃ d' fuel', Ready d' f cs t ri ∧ StartsIn d' f cs t ri ∧ segments strict true fuel' d' rest = some d'' := by
  obtain ⟨x, r, rfl, hx⟩ := hrest
  obtain ⟨fu, rfl⟩ : ∃ fu, fuel = fu + 1 := by
    cases fuel with
    | zero => unfold segments at h; cases h
    | succ n => exact ⟨n, rfl⟩
  have hmem : ∀ c' ∈ [c], c' ∈ cs := by simpa using hc
  have hsfc : scanFrameComps f (ScanDesc.mk [c] ss se).scan = [c].map Component.frame := scanFrameComps_ok hcs hr.comps [c] hmem ss se
  have hlen : (sosPayload [c] ss se).length + 2 < 65536 := by
    rw [sosPayload, List.length_cons, List.length_append, flatten_const_length _ _ 2 (fun _ => rfl)]
    simp
  unfold ScanDesc.bytes scanPart at h
  rw [List.append_assoc, segments_seg strict true fu d 0xDA (by decide) _ _ hlen, if_pos rfl] at h
  obtain ⟨⟨d', rest'⟩, h1, h2⟩ := Option.bind_eq_some_iff.mp h
  unfold decodeScan at h1
  simp only [Option.bind_eq_bind] at h1
  rw [show (d.mark 0xDA).frame = some f from hr.frame, Option.bind_some, parseScan_ok hcs hr.comps [c] hmem (by simp) hss hse, Option.bind_some] at h1
  split at h1
  · rename_i hv
    obtain ⟨⟨m, rest2⟩, h3, h4⟩ := Option.bind_eq_some_iff.mp h1
    rw [show scanFrameComps f ⟨[c].map Component.scanComp, ss, se⟩ = [c].map Component.frame from hsfc,
      show (d.mark 0xDA).ri = ri from hr.ri] at h3
    have hlay : layout f ([c].map Component.frame) = (raster (f.blocksHigh c.frame) (f.blocksWide c.frame)).map unit1 := rfl
    have hr2 : rest2 = 0xFF :: x :: r := decodeIntervals_rest (scanCoder t [c] ss se E) _ hx h3
    simp only [Option.some.injEq, Prod.mk.injEq] at h4
    obtain ⟨h4, h5⟩ := h4
    subst h4 h5 hr2
    refine ⟨_, fu, ?_, ?_, h2⟩
    · exact ⟨rfl, hr.comps, hr.ri, hr.dc, hr.ac, hr.q⟩
    intro c' hc' hcoded j p hp
    simp only [Bool.or_eq_true] at hcoded
    by_cases hold : d.coded c'.id 0 = true
    · have key := decodeIntervals_keep (c := c'.id) (env := ⟨f.progressive, ⟨[c].map Component.scanComp, ss, se⟩, (d.mark 0xDA).dc, (d.mark 0xDA).ac⟩) (by
        by_cases hs0 : ss = 0
        · right
          intro sc hsc he
          have := hv.2.2.2.2.2.1 sc hsc 0 (by simp) (by simp [hs0]) (by simp)
          rw [he] at this
          rw [show (d.mark 0xDA).coded = d.coded from rfl, hold] at this
          cases this
        · left
          show ss > 0
          omega) _ h3 p.1 p.2
      show category (m c'.id p.1 p.2 0) ∈ _
      rw [key]
      exact hin c' hc' hold j p hp
    · have hnew := hcoded.resolve_left hold
      simp only [Bool.and_eq_true, List.any_eq_true, decide_eq_true_eq, List.map_cons, List.map_nil, List.mem_singleton] at hnew
      obtain ⟨⟨sc, rfl, hid⟩, hs0, -⟩ := hnew
      have hid : c.id = c'.id := by simpa [Component.scanComp] using hid
      have hcc : c' = c := by
        obtain ⟨i, hi, hic⟩ := List.getElem_of_mem hc
        obtain ⟨i', hi', hic'⟩ := List.getElem_of_mem hc'
        have e1 := hcs.ids i c (by rw [List.getElem?_eq_getElem hi, hic])
        have e2 := hcs.ids i' c' (by rw [List.getElem?_eq_getElem hi', hic'])
        have : i = i' := by omega
        subst this
        rw [← hic, ← hic']
      subst hcc
      have hs0 : ss = 0 := by omega
      show category (m c'.id p.1 p.2 0) ∈ _
      obtain ⟨g, hg, hh⟩ := intervals_head hp
      refine decodeIntervals_heads (sc := c'.scanComp) (env := ⟨f.progressive, ⟨[c'].map Component.scanComp, ss, se⟩, (d.mark 0xDA).dc, (d.mark 0xDA).ac⟩) rfl hs0
        (T := (tabOf t c'.dcHuffmanTable).dc.spec) (hr.dc c' hc') _ h3 ?_ (g.flatMap unit1) ?_ (0, p.1, p.2) ?_
      · rw [← List.flatten_flatten, intervals_flatten, hlay]
        have : ((raster (f.blocksHigh c'.frame) (f.blocksWide c'.frame)).map unit1).flatten.map (fun u : DataUnit => u.2) =
            raster (f.blocksHigh c'.frame) (f.blocksWide c'.frame) := by
          rw [← List.flatMap_def, List.map_flatMap]
          simp [unit1]
        rw [this]
        exact raster_nodup _ _
      · rw [hlay, Coder.intervals_map, List.map_map]
        exact List.mem_map.mpr ⟨g, hg, by rw [Function.comp, List.flatMap_def]⟩
      · cases g with
        | nil => cases hh
        | cons q g =>
          obtain rfl := Option.some.inj hh
          rfl
  · cases h1

/-- Whatever a decoder makes of scans of single components. -/
theorem scans_loose {strict : Bool} {f : Frame} {cs : List Component} {t : HuffPair × HuffPair} {ri : Nat} (hcs : CompsOk cs) {E : Coefs}
    (l : List ScanDesc) (hl : ∀ sd ∈ l, ∃ c ∈ cs, sd.cs = [c] ∧ sd.ss < 256 ∧ sd.se < 256) {d d'' : Dec}
    (hr : Ready d f cs t ri) (hin : StartsIn d f cs t ri) {fuel : Nat}
    (h : segments strict true fuel d ((l.map fun sd => sd.bytes f t E ri).flatten ++ [0xFF, 0xD9]) = some d'') :
    Ready d'' f cs t ri ∧ StartsIn d'' f cs t ri ∧ complete d'' = true := by
  induction l generalizing d fuel with
  | nil =>
    cases fuel with
    | zero => unfold segments at h; cases h
    | succ n =>
      change (if (0xD9 : UInt8) = 0xD9 then if ([] : Bytes) = [] ∧ (true = true → complete d = true) then some d else none else _) = _ at h
      rw [if_pos rfl] at h
      split at h
      · rename_i hcmp
        obtain rfl := Option.some.inj h
        exact ⟨hr, hin, hcmp.2 rfl⟩
      · cases h
  | cons sd l ih =>
    obtain ⟨c, hc, h1, h2, h3⟩ := hl sd (by simp)
    obtain ⟨cs', ss, se⟩ := sd
    dsimp only at h1 h2 h3
    subst h1
    rw [List.map_cons, List.flatten_cons, List.append_assoc] at h
    have hms : MarkerStart ((l.map fun sd => sd.bytes f t E ri).flatten ++ [0xFF, 0xD9]) := by
      cases l with
      | nil => exact ⟨0xD9, [], rfl, by decide⟩
      | cons sd' l => exact ⟨0xDA, _, rfl, by decide⟩
    obtain ⟨d', fuel', hr', hin', h'⟩ := scan_loose hcs hr hin hc h2 h3 hms h
    exact ih (fun sd hsd => hl sd (by simp [hsd])) hr' hin' h'

/-- Whatever a decoder makes of a file whose scans have single components. -/
theorem file_loose {strict : Bool} (den : Density) (ct : JpegColorType) {apps : List (UInt8 × Bytes)}
    (happ : ∀ a ∈ apps, a.1.toNat ≤ 15 ∧ a.2.length ≤ 65533) {m : Mode} {cs : List Component}
    (hm : ∀ sd ∈ m.scans cs, ∃ c ∈ cs, sd.cs = [c] ∧ sd.ss < 256 ∧ sd.se < 256) {w h : UInt16}
    (hw : w ≠ 0) (hh : h ≠ 0) (hc : CompsOk cs) (hdest : ∀ c ∈ cs, (c.dcHuffmanTable = 0 ∧ c.acHuffmanTable = 0) ∨ 3 ≤ cs.length)
    {s0 s1 : List Nat} (hl0 : s0.length = 64) (hl1 : s1.length = 64)
    (hs0 : ∀ v ∈ s0, 1 ≤ v ∧ v ≤ 255) (hs1 : ∀ v ∈ s1, 1 ≤ v ∧ v ≤ 255) {t : HuffPair × HuffPair}
    (ht : TabsOk cs.length t) (ri : Option UInt16) {E : Coefs} {d : Dec}
    (hdec : decode strict (fileBytes den ct apps m w h cs s0 s1 t ri E) = some d) :
    Ready d (mkFrame m.isProg w h cs) cs t ((ri.map UInt16.toNat).getD 0) ∧
      ∀ c ∈ cs, ∀ j p, (raster ((mkFrame m.isProg w h cs).blocksHigh c.frame) ((mkFrame m.isProg w h cs).blocksWide c.frame))[j * ((ri.map UInt16.toNat).getD 0)]? = some p →
        category (d.coefs c.id p.1 p.2 0) ∈ (tabOf t c.dcHuffmanTable).dc.values := by
  have hst := (pre_steps (strict := strict) Dec.init den ct apps happ).trans (frame_steps _ rfl m.isProg hw hh hc hl0 hl1 hs0 hs1 ht ri)
  have hms : MarkerStart (((m.scans cs).map fun sd => sd.bytes (mkFrame m.isProg w h cs) t E ((ri.map UInt16.toNat).getD 0)).flatten ++ [0xFF, 0xD9]) := by
    cases m.scans cs with
    | nil => exact ⟨0xD9, [], rfl, by decide⟩
    | cons sd' l => exact ⟨0xDA, _, rfl, by decide⟩
  have e1 : fileBytes den ct apps m w h cs s0 s1 t ri E = [0xFF, 0xD8] ++ ((preBytes den ct apps ++ frameBytes m.isProg w h cs s0 s1 t ri) ++
      (((m.scans cs).map fun sd => sd.bytes (mkFrame m.isProg w h cs) t E ((ri.map UInt16.toNat).getD 0)).flatten ++ [0xFF, 0xD9])) := by
    simp only [fileBytes, List.append_assoc]
  rw [e1] at hdec
  change segments strict true _ Dec.init ((preBytes den ct apps ++ frameBytes m.isProg w h cs s0 s1 t ri) ++ _) = _ at hdec
  obtain ⟨fuel', -, e2⟩ := hst.run true _ hms _ (Nat.le_refl _)
  have hdec := e2.symm.trans hdec
  obtain ⟨h1, h2, h3⟩ := scans_loose hc (m.scans cs) hm (frame_ready hc hdest _ rfl m.isProg w h s0 s1 t ri) (by
    intro c _ hcod
    cases hcod) hdec
  refine ⟨h1, fun c hcm => h2 c hcm ?_⟩
  unfold complete at h3
  rw [h1.frame] at h3
  simp only [List.all_eq_true, List.mem_range] at h3
  refine h3 c.id ?_ 0 (by omega)
  have := hc.id_lt hcm
  simpa [mkFrame] using this

end Jpeg
