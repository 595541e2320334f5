import Verif.Props.Reads
import Verif.Props.Twice
/-!
# Property C91: name tables in order
-/

namespace MapEditr
open Spec

theorem SomeRow.tidy {F : Prop} {c : Codec} {src t : Table} {part : Int → Area} {o : Vec3} {k : Int} {d : Bytes}
    (h : SomeRow F c src t part o k (some d)) : (k, d) ∈ t ∨ ∃ b, Represents c d b ∧ Tidy b ∧ MetaRoom b ∧ Written b := by
  rcases h with ⟨h, -⟩ | ⟨b, find, d', b', -, -, hd, h1, h2⟩
  · exact .inl (Table.get?_some_mem h.symm)
  · cases hd
    exact .inr ⟨b', h1, h2.tidy, h2.room, h2.written⟩

theorem RowsDone.changed {F : Prop} {Row : Int → Option Bytes → Prop} {bad : Int → Bool} {ks : List Int}
    {t t' : Table} {w w' : World} (h : RowsDone F Row bad ks t w t' w')
    (P : Int × Bytes → Prop) (hn : (t.map (·.1)).Nodup) (hP : ∀ k d, Row k (some d) → P (k, d)) (r : Int × Bytes) (hr : r ∈ t') :
    r ∈ t ∨ P r := by
  have hget := Table.get?_of_mem (h.nodup hn) (k := r.1) (d := r.2) hr
  by_cases hk : r.1 ∈ ks
  · have := h.on _ hk
    rw [hget] at this
    exact .inr (hP _ _ this)
  · rw [h.off _ hk] at hget
    exact .inl (Table.get?_some_mem hget)

/-- Every block that `fill` has changed has a name table in order. -/
theorem C91_fill (env : Env) (args : InstArgs) (t t' : Table) (evs : List Event) (a : Area)
    (node : String) (hE : EnvOk env) (hg : GoodTable t) (hc : args.command = "fill")
    (harea : args.area = some a) (ha : a.isValid = true) (hnode : args.newNode = some node)
    (h : Completes env args t t' evs) (r : Int × Bytes) (hr : r ∈ t') :
    r ∈ t ∨ TidyData env.codec r.2 := by
  have k1 := fill_edited env args t t' evs a node hE hg hc harea ha hnode h
  have hg' := goodTable_of_edited hg k1
  obtain ⟨bp, hbp, hkey, -⟩ := row_pos hg' hr
  obtain ⟨r0, hr0, hk0⟩ := List.mem_map.1 ((k1.keys r.1).1 (List.mem_map.2 ⟨r, hr, rfl⟩))
  have hr0' : (keyOf bp, r0.2) ∈ t := by rw [hkey, ← hk0]; exact hr0
  have huniq : ∀ d, (keyOf bp, d) ∈ t' → d = r.2 := by
    intro d hd
    have h1 := Table.get?_of_mem k1.nodup hd
    rw [hkey, Table.get?_of_mem k1.nodup (k := r.1) (d := r.2) hr] at h1
    exact (Option.some.inj h1).symm
  have hsame : (keyOf bp, r0.2) ∈ t' → r ∈ t := by
    intro hm
    have h1 := huniq _ hm
    have : r = r0 := Prod.ext hk0.symm h1.symm
    rw [this]
    exact hr0
  by_cases hrd : ∃ b, Represents env.codec r0.2 b
  · obtain ⟨b, hb⟩ := hrd
    by_cases hs : ∃ p, InBlock bp p ∧ Selected (some a) args.invert p
    · obtain ⟨d', b', h1, h2, -, h3, -⟩ := k1.good bp _ b hbp hr0' hb
      obtain ⟨p, hp, hps⟩ := hs
      obtain ⟨i, hi, rfl⟩ := exists_posAt hp
      have := huniq _ h1
      subst this
      exact .inr ⟨b', h2, (h3 ⟨i, hi, hps⟩).2.2.2⟩
    · exact .inl (hsame (k1.outside bp _ hbp hr0' fun p hp hps => hs ⟨p, hp, hps⟩))
  · exact .inl (hsame (k1.bad _ _ hr0' fun b hb => hrd ⟨b, hb⟩))

/-- Non-trivial case: the name table of the only readable block is not in order. -/
example : EnvOk (editEnv (toyMap ghostBlock)) ∧ GoodTable (toyMap ghostBlock) ∧
    ¬ TidyData (Toy.codec id) (Toy.data ghostBlock) ∧
    ∃ t' evs, Completes (editEnv (toyMap ghostBlock)) (fillArgs false) (toyMap ghostBlock) t' evs ∧
      ∃ r ∈ t', r ∉ toyMap ghostBlock := by
  have hnot : ¬ TidyData (Toy.codec id) (Toy.data ghostBlock) := by
    rintro ⟨b, h1, h2⟩
    have := represents_unique h1 (Toy.data_rep ghostBlock_wf)
    rw [this] at h2
    have := h2.ids
    have e : (stored ghostBlock).nimap.map (·.1) = [1] := rfl
    have e' : (stored ghostBlock).nimap.length = 1 := rfl
    rw [e, e'] at this
    exact absurd this (by decide)
  refine ⟨editEnv_ok _, toyMap_good _, hnot, ?_⟩
  obtain ⟨t', evs, h⟩ := fill_toy false ghostBlock ghostBlock_wf ghostBlock_covered (by
    intro e he
    have he : e ∈ [(1, ascii "a")] := he
    rw [List.mem_singleton] at he
    subst he
    exact Nat.le_refl 1)
  refine ⟨t', evs, h, ?_⟩
  have k := fill_edited _ _ _ t' evs ⟨⟨0, 0, 0⟩, ⟨0, 0, 0⟩⟩ "default:stone" (editEnv_ok _) (toyMap_good _).nodup rfl rfl
    (by decide) rfl h
  have hm : (keyOf ⟨0, 0, 0⟩, Toy.data ghostBlock) ∈ toyMap ghostBlock := List.mem_cons_self
  obtain ⟨d', b', h1, h2, -, h3, -⟩ :=
    k.good ⟨0, 0, 0⟩ _ _ (by unfold ValidBlockPos; decide) hm (Toy.data_rep ghostBlock_wf)
  have ht := (h3 ⟨0, by decide, (selected_iff _ _ _).2 (by unfold InBox; decide)⟩).2.2.2
  refine ⟨_, h1, fun hx => ?_⟩
  have : d' = Toy.data ghostBlock := by
    have e1 := Table.get?_of_mem (toyMap_good ghostBlock).nodup hx
    rw [Table.get?_of_mem (toyMap_good ghostBlock).nodup hm] at e1
    exact (Option.some.inj e1).symm
  rw [this] at h2
  exact hnot ⟨b', h2, ht⟩

/-- The blocks that `clone` has changed. -/
theorem clone_rows (env : Env) (args : InstArgs) (t t' : Table) (evs : List Event) (a : Area)
    (o : Vec3) (hE : EnvOk env) (hg : GoodTable t)
    (hc : args.command = "clone") (harea : args.area = some a) (ha : a.isValid = true)
    (hoff : args.offset = some o) (hb : AllBlocks env.codec t (Mild env.build))
    (h : Completes env args t t' evs) (r : Int × Bytes) (hr : r ∈ t') :
    r ∈ t ∨ ∃ b, Represents env.codec r.2 b ∧ Tidy b ∧ MetaRoom b ∧ Written b := by
  replace h := calm_completes (by rw [hc]; decide) h
  replace hE : EnvOk env.calm := hE.failing _ _
  haveI : Calm env.calm := ⟨fun _ _ => rfl⟩
  obtain ⟨D⟩ := completes_done h (by rw [hc]; decide)
  have hbody := D.body_of hc clone_command
  simp only at hbody
  obtain ⟨cur, ks, h2, h3, h4⟩ := clone_any (F := True) (fun _ _ => trivial) hE D.start hg hb harea hoff ha hbody
  obtain ⟨rfl, -⟩ := openAt_unique D.fin h3
  rcases h4.changed (fun r => r ∈ t ∨ ∃ b, Represents env.codec r.2 b ∧ Tidy b ∧ MetaRoom b ∧ Written b) hg.nodup
    (fun k d => SomeRow.tidy) r hr with h | h | h
  · exact .inl h
  · exact .inl h
  · exact .inr h

/-- Every block that `clone` has changed has a name table in order, whichever statements fail. -/
theorem C91_clone (env : Env) (args : InstArgs) (t t' : Table) (evs : List Event) (a : Area)
    (o : Vec3) (hE : EnvOk env) (hg : GoodTable t)
    (hc : args.command = "clone") (harea : args.area = some a) (ha : a.isValid = true)
    (hoff : args.offset = some o) (hb : AllBlocks env.codec t (Mild env.build))
    (h : Completes env args t t' evs) (r : Int × Bytes) (hr : r ∈ t') :
    r ∈ t ∨ TidyData env.codec r.2 := by
  rcases clone_rows env args t t' evs a o hE hg hc harea ha hoff hb h r hr with h | ⟨b, h1, h2, -⟩
  · exact .inl h
  · exact .inr ⟨b, h1, h2⟩

/-- Non-trivial case: a clone of which one read fails. -/
example : EnvOk (cloneFailEnv 5 (pairMap 0 (Toy.block 28))) ∧ GoodTable (pairMap 0 (Toy.block 28)) ∧
    AllBlocks (Toy.codec id) (pairMap 0 (Toy.block 28)) (Mild (cloneFailEnv 5 []).build) ∧
    ∃ t' evs, Completes (cloneFailEnv 5 (pairMap 0 (Toy.block 28))) (cloneArgs 0 18) (pairMap 0 (Toy.block 28)) t' evs :=
  ⟨⟨Toy.lawful id, Toy.fullWrites, fun _ => Toy.ord_lawful⟩,
    pairMap_good (by decide) (by decide) _, (pairMap_all (Toy.block_wf 28 (by omega)) (toy_tame 28)).mild _, _, _,
    cloneFail_completes rfl (Toy.block_wf 28 (by omega))⟩

/-- The blocks that `overlay` with an offset has changed. -/
theorem shifted_rows (env : Env) (args : InstArgs) (t t' : Table) (evs : List Event) (p : String)
    (g : DbFile) (o : Vec3) (hE : EnvOk env) (hg : GoodTable t)
    (hc : args.command = "overlay") (hp : args.inputMapPath = some p)
    (hgf : mapFile env p = some g) (hv : ∀ a, args.area = some a → a.isValid = true)
    (hoff : args.offset = some o) (hz : o ≠ ⟨0, 0, 0⟩)
    (hb : AllBlocks env.codec t (Mild env.build))
    (hbs : AllBlocks env.codec g.table (Mild env.build))
    (h : Completes env args t t' evs) (r : Int × Bytes) (hr : r ∈ t') :
    r ∈ t ∨ ∃ b, Represents env.codec r.2 b ∧ Tidy b ∧ MetaRoom b ∧ Written b := by
  replace h := calm_completes (by rw [hc]; decide) h
  replace hE : EnvOk env.calm := hE.failing _ _
  haveI : Calm env.calm := ⟨fun _ _ => rfl⟩
  obtain ⟨D, h1, h2, h3⟩ := overlay_done (env := env.calm) hc hp hgf h
  rw [if_neg (by rw [hoff]; exact hz)] at h3
  have hinv : args.invert = false := by
    cases hi : args.invert with
    | false => rfl
    | true =>
      have := (overlayVerify_ok h2).2 hi
      rw [hoff] at this
      exact absurd this hz
  obtain ⟨cur', P1, P⟩ := overlayOffset_any (F := True) (fun _ _ => trivial) hE D.start h1 hg hb hbs hoff hinv hv h3
  obtain ⟨rfl, -⟩ := openAt_unique D.fin P1
  rcases P.changed (fun r => r ∈ t ∨ ∃ b, Represents env.codec r.2 b ∧ Tidy b ∧ MetaRoom b ∧ Written b) hg.nodup
    (fun k d => SomeRow.tidy) r hr with h | h | h
  · exact .inl h
  · exact .inl h
  · exact .inr h

/-- The same for `overlay` with an offset. -/
theorem C91_overlay_offset (env : Env) (args : InstArgs) (t t' : Table) (evs : List Event) (p : String)
    (g : DbFile) (o : Vec3) (hE : EnvOk env) (hg : GoodTable t)
    (hc : args.command = "overlay") (hp : args.inputMapPath = some p)
    (hgf : mapFile env p = some g) (hv : ∀ a, args.area = some a → a.isValid = true)
    (hoff : args.offset = some o) (hz : o ≠ ⟨0, 0, 0⟩)
    (hb : AllBlocks env.codec t (Mild env.build))
    (hbs : AllBlocks env.codec g.table (Mild env.build))
    (h : Completes env args t t' evs) (r : Int × Bytes) (hr : r ∈ t') :
    r ∈ t ∨ TidyData env.codec r.2 := by
  rcases shifted_rows env args t t' evs p g o hE hg hc hp hgf hv hoff hz hb hbs h r hr with h | ⟨b, h1, h2, -⟩
  · exact .inl h
  · exact .inr ⟨b, h1, h2⟩

/-- Non-trivial case. -/
example : EnvOk (twoFailEnv 9 (pairMap 0 (Toy.block 28)) (pairMap 0 (otherBlock 0))) ∧
    GoodTable (pairMap 0 (Toy.block 28)) ∧
    AllBlocks (Toy.codec id) (pairMap 0 (Toy.block 28)) (Mild (twoFailEnv 9 [] []).build) ∧
    AllBlocks (Toy.codec id) (pairMap 0 (otherBlock 0)) (Mild (twoFailEnv 9 [] []).build) ∧
    ∃ t' evs, Completes (twoFailEnv 9 (pairMap 0 (Toy.block 28)) (pairMap 0 (otherBlock 0)))
      (overlayShiftArgs 0 18) (pairMap 0 (Toy.block 28)) t' evs :=
  ⟨⟨Toy.lawful id, Toy.fullWrites, fun _ => Toy.ord_lawful⟩, pairMap_good (by decide) (by decide) _,
    (pairMap_all (Toy.block_wf 28 (by omega)) (toy_tame 28)).mild _,
    (pairMap_all (otherBlock_wf (by omega)) (otherBlock_tame _)).mild _, _, _,
    overlayShiftFail_completes rfl (Toy.block_wf 28 (by omega)) rfl (otherBlock_wf (by omega))⟩

theorem SomeLaid.tidy {F : Prop} {c : Codec} {src t : Table} {area : Option Area} {invert : Bool} {k : Int}
    {d : Bytes} (h : SomeLaid F c src t area invert k (some d)) :
    (k, d) ∈ t ∨ (k, d) ∈ src ∨ ∃ b, Represents c d b ∧ Tidy b ∧ MetaRoom b ∧ Written b := by
  have hw : WholeRow c src t k (some d) → (k, d) ∈ t ∨ (k, d) ∈ src := by
    rintro ⟨sd, h1, h2⟩
    split at h2
    · cases h2
      exact .inr (Table.get?_some_mem h1)
    · exact .inl (Table.get?_some_mem h2.symm)
  have hp : ∀ a, PartRow c src t a invert k (some d) →
      (k, d) ∈ t ∨ ∃ b, Represents c d b ∧ Tidy b ∧ MetaRoom b ∧ Written b := by
    rintro a ⟨sd, h1, h2, h3⟩
    by_cases hx : ∃ sb b, deserialize c sd = .ok sb ∧ orig c t k = some (.ok b)
    · obtain ⟨sb, b, e1, e2⟩ := hx
      obtain ⟨d', b', e3, e4, e5⟩ := h2 sb b e1 e2
      cases e3
      exact .inr ⟨b', e4, e5.tidy, e5.room, e5.written⟩
    · exact .inl (Table.get?_some_mem (h3 fun sb b e => hx ⟨sb, b, e⟩).symm)
  unfold SomeLaid at h
  cases area with
  | none => exact (hw h).imp_right .inl
  | some a =>
    simp only at h
    split at h
    · exact (hw h).imp_right .inl
    · rcases h with ⟨-, h⟩ | h
      · exact .inl (Table.get?_some_mem h.symm)
      · exact (hp a h).imp_right .inr

/-- What `overlay` without offset leaves behind, whichever statements fail. -/
theorem overlay_rows (env : Env) (args : InstArgs) (t t' : Table) (evs : List Event) (p : String)
    (g : DbFile) (hE : EnvOk env) (hg : GoodTable t)
    (hgs : GoodTable g.table) (hc : args.command = "overlay") (hp : args.inputMapPath = some p)
    (hgf : mapFile env p = some g) (ha : AreaOk args.area)
    (hoff : args.offset = none ∨ args.offset = some ⟨0, 0, 0⟩)
    (hb : AllBlocks env.codec t (Mild env.build))
    (hbs : AllBlocks env.codec g.table (Mild env.build))
    (h : Completes env args t t' evs) (r : Int × Bytes) (hr : r ∈ t') :
    r ∈ t ∨ r ∈ g.table ∨ ∃ b, Represents env.codec r.2 b ∧ Tidy b ∧ MetaRoom b ∧ Written b := by
  replace h := calm_completes (by rw [hc]; decide) h
  replace hE : EnvOk env.calm := hE.failing _ _
  haveI : Calm env.calm := ⟨fun _ _ => rfl⟩
  obtain ⟨D, h1, -, h3⟩ := overlay_done (env := env.calm) hc hp hgf h
  rw [if_pos (by rcases hoff with e | e <;> rw [e] <;> rfl)] at h3
  obtain ⟨cur', P1, P⟩ := plain_any (F := True) (fun _ _ => trivial) hE D.start h1 hgs hb hbs (args := args) ha h3
  obtain ⟨rfl, -⟩ := openAt_unique D.fin P1
  rcases P.changed (fun r => r ∈ t ∨ r ∈ g.table ∨ ∃ b, Represents env.codec r.2 b ∧ Tidy b ∧ MetaRoom b ∧ Written b)
      hg.nodup (fun k d => SomeLaid.tidy) r hr with h | h | h | h
  · exact .inl h
  · exact .inl h
  · exact .inr (.inl h)
  · exact .inr (.inr h)

/-- Every block that `overlay` without offset has changed is that of the input map, byte for byte, or has a
name table in order. -/
theorem C91_overlay (env : Env) (args : InstArgs) (t t' : Table) (evs : List Event) (p : String)
    (g : DbFile) (hE : EnvOk env) (hg : GoodTable t)
    (hgs : GoodTable g.table) (hc : args.command = "overlay") (hp : args.inputMapPath = some p)
    (hgf : mapFile env p = some g) (ha : AreaOk args.area)
    (hoff : args.offset = none ∨ args.offset = some ⟨0, 0, 0⟩)
    (hb : AllBlocks env.codec t (Mild env.build))
    (hbs : AllBlocks env.codec g.table (Mild env.build))
    (h : Completes env args t t' evs) (r : Int × Bytes) (hr : r ∈ t') :
    r ∈ t ∨ r ∈ g.table ∨ TidyData env.codec r.2 := by
  rcases overlay_rows env args t t' evs p g hE hg hgs hc hp hgf ha hoff hb hbs h r hr with h | h | ⟨b, h1, h2, -⟩
  · exact .inl h
  · exact .inr (.inl h)
  · exact .inr (.inr ⟨b, h1, h2⟩)

/-- Non-trivial case. -/
example : EnvOk (twoFailEnv 9 (oneMap (Toy.block 28)) (oneMap (otherBlock 0))) ∧
    GoodTable (oneMap (Toy.block 28)) ∧ GoodTable (oneMap (otherBlock 0)) ∧
    AllBlocks (Toy.codec id) (oneMap (Toy.block 28)) (Mild (twoFailEnv 9 [] []).build) ∧
    AllBlocks (Toy.codec id) (oneMap (otherBlock 0)) (Mild (twoFailEnv 9 [] []).build) ∧
    ∃ t' evs, Completes (twoFailEnv 9 (oneMap (Toy.block 28)) (oneMap (otherBlock 0)))
      (overlayArgs false) (oneMap (Toy.block 28)) t' evs :=
  ⟨⟨Toy.lawful id, Toy.fullWrites, fun _ => Toy.ord_lawful⟩, oneMap_good _, oneMap_good _,
    (oneMap_all (Toy.block_wf 28 (by omega)) (toy_tame 28)).mild _,
    (oneMap_all (otherBlock_wf (by omega)) (otherBlock_tame _)).mild _, _, _,
    overlayFail_completes rfl (Toy.block_wf 28 (by omega)) rfl (otherBlock_wf (by omega))⟩

end MapEditr
