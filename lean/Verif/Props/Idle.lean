import Verif.Spec.Idle
import Verif.Props.Again
/-!
# Property C103: blocks with nothing to do keep their bytes

A block in which there is nothing to change is not even saved again.
-/

namespace MapEditr
open Spec

theorem idle_kept {env : Env} {args : InstArgs} {t t' : Table} {evs : List Event} {late : Bool} {strs : List Bytes}
    {edit : Int → MapBlock → Res (Option MapBlock × γ)} {add : γ → γ → γ} {g0 : γ} {msg : γ → Msg} (hg : GoodTable t)
    (ha : AreaOk args.area) (h : Completes env args t t' evs) {name : String} {cmd : Command} (hc : args.command = name)
    (hcmd : command? name = some cmd) (hv : name ≠ "vacuum")
    (heq : cmd.func env args = editCommand env late strs args.area args.invert edit add g0 msg)
    {Todo : Vec3 → MapBlock → Prop}
    (hno : ∀ bp b ob n, ValidBlockPos bp → Wf b → (∃ p, InBlock bp p ∧ Selected args.area args.invert p) →
      ¬ Todo bp b → edit (keyOf bp) b = .ok (ob, n) → ob = none) : IdleKept env.codec t t' Todo := by
  intro bp d b hbp hd hrep hidle
  obtain ⟨D, g, e, -⟩ := change_edits h hc hcmd hv hg.nodup heq
  have hget := Table.get?_of_mem hg.nodup hd
  refine Table.get?_some_mem ?_
  by_cases hk : (keyOf bp, d) ∈ hits strs args.area args.invert t
  · obtain ⟨d', h1, h2⟩ := e.on _ hk
    rw [show t'.get? (keyOf bp) = _ from h1]
    rcases h2 with ⟨-, h2⟩ | ⟨b', ob, n, h2, h3, h4⟩
    · rw [h2]
    · have hb := represents_unique (deserialize_iff.1 h2) hrep
      subst hb
      have hs := (areaKeeps_iff ha args.invert true hbp).1 (mem_hits.1 hk).2.1
      have hob := hno bp b' ob n hbp (wf_of_represents hrep) hs hidle h3
      rcases h4 with ⟨-, h4⟩ | ⟨b1, m, h4, -⟩
      · rw [h4]
      · rw [hob] at h4
        cases h4
  · rw [e.off (keyOf bp) fun hm => hk ?_, hget]
    obtain ⟨x, hx, hxk⟩ := List.mem_map.1 hm
    have := Table.get?_of_mem hg.nodup (k := x.1) (d := x.2) (mem_hits.1 hx).1
    rw [hxk, hget] at this
    have hx2 : x = (keyOf bp, d) := Prod.ext hxk (Option.some.inj this).symm
    rw [← hx2]
    exact hx

theorem isFirst_isNode {b : MapBlock} {node : Option Bytes} {i : Nat} (h : IsFirst b node i) : IsNode b node i := by
  intro n hn
  obtain ⟨id, h1, h2, -⟩ := h n hn
  unfold nodeName
  rw [h1]
  exact h2

theorem amongFirst_among {b : MapBlock} {nodes : List Bytes} {i : Nat} (h : AmongFirst b nodes i) :
    AmongNodes b nodes i := by
  rcases h with h | ⟨n, h1, id, h2, h3, -⟩
  · exact .inl h
  · refine .inr ⟨n, h1, ?_⟩
    unfold nodeName
    rw [h2]
    exact h3

theorem metaEdit_zero {args : InstArgs} {nodes : List Bytes} {edit : NodeMeta → NodeMeta × Nat} {k : Int} {b : MapBlock}
    {ob : Option MapBlock} {ns : List Nat} (h : metaEdit args nodes edit k b = .ok (ob, ns)) (hz : ∀ n ∈ ns, n = 0) :
    ob = none := by
  unfold metaEdit at h
  simp only at h
  split at h
  · cases h; rfl
  · cases hr : editMetas args (nodes.filterMap fun n => NameIdMap.getId b.nimap n) k b.nd.nodes edit b.metas with
    | error e => rw [hr] at h; cases h
    | ok r =>
      rw [hr] at h
      simp only [Except.map, Except.ok.injEq, Prod.mk.injEq] at h
      obtain ⟨h1, h2⟩ := h
      rw [if_neg] at h1
      · exact h1.symm
      · rw [h2, List.any_eq_true]
        rintro ⟨n, hn, hp⟩
        rw [hz n hn] at hp
        cases hp

/-- `deletemeta`: blocks without metadata to delete keep their bytes. -/
theorem C103_deletemeta (env : Env) (args : InstArgs) (t t' : Table) (evs : List Event) (hg : GoodTable t)
    (hc : args.command = "deletemeta") (ha : AreaOk args.area) (h : Completes env args t t' evs) :
    IdleKept env.codec t t' fun bp b => ∃ e ∈ b.metas, Selected args.area args.invert (posAt bp (e.1 % 4096)) ∧
      IsNode b (args.node.map toBytes) e.1 := by
  refine idle_kept hg ha h hc deleteMeta_command (by decide) (deleteMetadata_eq env args) ?_
  intro bp b ob n hbp hw hs hno hed
  obtain ⟨ob', h1, -⟩ := deleteMeta_block (Q := fun b => IsFirst b (args.node.map toBytes)) hbp hw (fun _ => Iff.rfl)
    (.inr ⟨_, hed⟩)
  rw [filter_none fun e he hx => hno ⟨e, he, hx.1, isFirst_isNode hx.2⟩, hed] at h1
  cases h1
  exact deleteMetaEdit_zero hed

/-- `deletetimers`: blocks without timers to delete keep their bytes. -/
theorem C103_deletetimers (env : Env) (args : InstArgs) (t t' : Table) (evs : List Event) (hg : GoodTable t)
    (hc : args.command = "deletetimers") (ha : AreaOk args.area) (h : Completes env args t t' evs) :
    IdleKept env.codec t t' fun bp b => ∃ e ∈ b.timers, Selected args.area args.invert (posAt bp (e.pos % 4096)) ∧
      IsNode b (args.node.map toBytes) e.pos := by
  refine idle_kept hg ha h hc deleteTimers_command (by decide) (deleteTimers_eq env args) ?_
  intro bp b ob n hbp hw hs hno hed
  obtain ⟨ob', h1, -⟩ := deleteTimers_block (Q := fun b => IsFirst b (args.node.map toBytes)) hbp hw (fun _ => Iff.rfl)
    (.inr ⟨_, hed⟩)
  rw [filter_none fun e he hx => hno ⟨e, he, hx.1, isFirst_isNode hx.2⟩, hed] at h1
  cases h1
  exact deleteTimersEdit_zero hed

open Classical in
/-- `deleteobjects`: blocks without objects to delete keep their bytes. -/
theorem C103_deleteobjects (env : Env) (args : InstArgs) (t t' : Table) (evs : List Event) (hg : GoodTable t)
    (hc : args.command = "deleteobjects") (ha : AreaOk args.area) (h : Completes env args t t' evs) :
    IdleKept env.codec t t' fun _ b =>
      ∃ o ∈ b.objects, ObjectSelected args.area args.invert (entityFor args) (itemsFor args) o := by
  have hargs := completes_args h (by rw [hc]; decide)
  refine idle_kept hg ha h hc deleteObjects_command (by decide) (deleteObjects_eq env args) ?_
  intro bp b ob n hbp hw hs hno hed
  obtain ⟨ob', h1, -⟩ := deleteObjects_edit hw hargs hs (.inl ⟨_, hed⟩)
  rw [filter_none fun o ho hx => hno ⟨o, ho, hx.2⟩, hed] at h1
  cases h1
  exact deleteObjectsEdit_zero hed

/-- `setmetavar`: blocks without the variable keep their bytes. -/
theorem C103_setmetavar (env : Env) (args : InstArgs) (t t' : Table) (evs : List Event) (key : String) (hg : GoodTable t)
    (hc : args.command = "setmetavar") (ha : AreaOk args.area) (hk : args.key = some key)
    (h : Completes env args t t' evs) :
    IdleKept env.codec t t' fun bp b => ∃ e ∈ b.metas, Selected args.area args.invert (posAt bp (e.1 % 4096)) ∧
      AmongNodes b (args.nodes.map toBytes) e.1 ∧ HasVar (toBytes key) e.2 := by
  refine idle_kept hg ha h hc setMetaVar_command (by decide) (setMetaVar_eq env args hk) ?_
  intro bp b ob n hbp hw hs hno hed
  obtain ⟨ob', h1, -⟩ := setMetaVar_block (Q := fun b => AmongFirst b (args.nodes.map toBytes)) hbp hw (fun _ => Iff.rfl)
    (.inr ⟨_, hed⟩)
  rw [filter_none fun e he hx => hno ⟨e, he, hx.1.1, amongFirst_among hx.1.2, hx.2⟩, hed] at h1
  cases h1
  unfold setMetaVarEdit at hed
  cases hm : metaEdit args (args.nodes.map toBytes) (editVar (toBytes key) (toBytes (args.value.getD "")) args.delete)
    (keyOf bp) b with
  | error e => rw [hm] at hed; cases hed
  | ok r =>
    rw [hm] at hed
    obtain ⟨r1, r2⟩ := r
    simp only [Except.map, Except.ok.injEq, Prod.mk.injEq] at hed
    rw [← hed.1]
    exact metaEdit_zero hm fun n hn => List.sum_eq_zero_iff_forall_eq_nat.1 hed.2 n hn

/-- `replaceininv`: blocks without the item keep their bytes, whatever their inventories look like. -/
theorem C103_replaceininv (env : Env) (args : InstArgs) (t t' : Table) (evs : List Event) (item : String)
    (hg : GoodTable t) (hc : args.command = "replaceininv") (ha : AreaOk args.area) (hk : args.item = some item)
    (h : Completes env args t t' evs) :
    IdleKept env.codec t t' fun bp b => ∃ e ∈ b.metas, Selected args.area args.invert (posAt bp (e.1 % 4096)) ∧
      AmongNodes b (args.nodes.map toBytes) e.1 ∧ HoldsItem (toBytes item) e.2.inv := by
  have hi := (item_bytes (completes_args h (by rw [hc]; decide)) hk 32 (.inr rfl)).1
  refine idle_kept hg ha h hc replaceInInv_command (by decide) (replaceInInv_eq env args hk) ?_
  intro bp b ob n hbp hw hs hno hed
  have hz : ∀ m : NodeMeta, ¬ HoldsItem (toBytes item) m.inv →
      invReplace m.inv (toBytes item) (newItemOf args (toBytes item)) args.deleteMeta = (m.inv, 0) := by
    intro m hm
    obtain ⟨lines, last, g1, g2, g3⟩ := C45_every_text m.inv
    obtain ⟨ls, k, g4, g5⟩ := C45_any_text_partial (toBytes item) (newItemOf args (toBytes item)) args.deleteMeta hi
      lines last g1 g2
    have hk0 : k = 0 := by
      rw [linesEdit_count g4, filter_none, List.length_nil]
      intro l hl hst
      exact hm ⟨lines, last, g1, g2, g3, l, (List.mem_filter.1 hl).1, hst⟩
    rw [g3, g5, if_pos hk0]
  unfold replaceInInvEdit at hed
  cases hm : metaEdit args (args.nodes.map toBytes) (editInv (toBytes item) (newItemOf args (toBytes item)) args.deleteMeta)
    (keyOf bp) b with
  | error e => rw [hm] at hed; cases hed
  | ok r =>
    obtain ⟨ob', h1, -⟩ := metaEdit_spec (args := args) (nodes := args.nodes.map toBytes)
      (edit := editInv (toBytes item) (newItemOf args (toBytes item)) args.deleteMeta) hbp hw
      (Q := fun b => AmongFirst b (args.nodes.map toBytes)) (fun _ => Iff.rfl) (.inr ⟨_, hm⟩) (by
        intro e he h0
        unfold editInv at h0 ⊢
        simp only at h0 ⊢
        obtain ⟨lines, last, g1, g2, g3⟩ := C45_every_text e.2.inv
        obtain ⟨ls, k, -, g5⟩ := C45_any_text_partial (toBytes item) (newItemOf args (toBytes item)) args.deleteMeta hi
          lines last g1 g2
        rw [g3, g5] at h0 ⊢
        split at h0
        · next hk0 => rw [if_pos hk0, ← g3]
        · next hk0 => exact absurd h0 hk0)
    rw [hm] at hed h1
    cases h1
    simp only [Except.map, Except.ok.injEq, Prod.mk.injEq] at hed
    rw [← hed.1]
    refine metaEdit_zero hm ?_
    intro x hx
    obtain ⟨e, he, rfl⟩ := List.mem_map.1 hx
    obtain ⟨he1, he2⟩ := List.mem_filter.1 he
    have he2 := of_decide_eq_true he2
    unfold editInv
    simp only
    rw [hz e.2 fun hx => hno ⟨e, he1, he2.1, amongFirst_among he2.2, hx⟩]

/-- `replacenodes`: blocks without the old name keep their bytes.

The full statement has "without a selected node of that name", see `C103_false`. -/
theorem C103_replacenodes_partial (env : Env) (args : InstArgs) (t t' : Table) (evs : List Event) (old new : String)
    (hg : GoodTable t) (hc : args.command = "replacenodes") (ha : AreaOk args.area) (ho : args.node = some old)
    (hn : args.newNode = some new) (h : Completes env args t t' evs) :
    IdleKept env.codec t t' fun _ b => ∃ e ∈ b.nimap, e.2 = toBytes old := by
  refine idle_kept hg ha h hc replaceNodes_command (by decide) (replaceNodes_eq env args ho hn) ?_
  intro bp b ob n hbp hw hs hno hed
  unfold replaceEdit at hed
  cases hid : NameIdMap.getId b.nimap (toBytes old) with
  | none => rw [hid] at hed; cases hed; rfl
  | some id => exact absurd ⟨_, getId_some hid, rfl⟩ hno

/-- `setparam2`: blocks without the node name keep their bytes.

The full statement has "without a selected node of that name". -/
theorem C103_setparam2_partial (env : Env) (args : InstArgs) (t t' : Table) (evs : List Event) (val : UInt8)
    (hg : GoodTable t) (hc : args.command = "setparam2") (ha : AreaOk args.area) (hv : args.param2 = some val)
    (h : Completes env args t t' evs) :
    IdleKept env.codec t t' fun _ b => ∀ n, args.node = some n → ∃ e ∈ b.nimap, e.2 = toBytes n := by
  refine idle_kept hg ha h hc setParam2_command (by decide) (setParam2_eq env args val hv) ?_
  intro bp b ob n hbp hw hs hno hed
  unfold param2Edit at hed
  simp only at hed
  rw [if_pos] at hed
  · cases hed; rfl
  · cases hn : args.node with
    | none => exact absurd (fun n h => by rw [hn] at h; cases h) hno
    | some n =>
      cases hid : NameIdMap.getId b.nimap (toBytes n) with
      | none => simp [hid]
      | some id => exact absurd (fun m h => by rw [hn] at h; cases h; exact ⟨_, getId_some hid, rfl⟩) hno

/-- `fill`: blocks without selected positions keep their bytes. -/
theorem C103_fill (env : Env) (args : InstArgs) (t t' : Table) (evs : List Event) (a : Area) (new : String)
    (hg : GoodTable t) (hc : args.command = "fill") (harea : args.area = some a) (ha : a.isValid = true)
    (hn : args.newNode = some new)
    (h : Completes env args t t' evs) :
    IdleKept env.codec t t' fun bp _ => ∃ p, InBlock bp p ∧ Selected args.area args.invert p := by
  refine idle_kept hg (by intro a' h'; rw [harea] at h'; cases h'; exact ha) h hc fill_command (by decide)
    (fill_eq env args a new harea hn) ?_
  intro bp b ob n hbp hw hs hno hed
  exact absurd hs hno

/-! ## The full statement is false of `replacenodes` -/

/-- A compressor that can write the same content in several ways, by the first byte. -/
def Toy.marked : Codec :=
  { Toy.codec id with
    zstdEnc := fun x => 0 :: x
    zstdDec := fun s => match s with
      | [] => none
      | _ :: x => some x
    zstdHead := fun s => s.tail.head? }

theorem Toy.marked_lawful : Toy.marked.Lawful where
  zlib := Toy.dec_enc
  zstd := fun _ => rfl
  head := by
    intro s b t h
    cases s with
    | nil => cases h
    | cons a x => cases h; rfl
  nil := by intro b t h; cases h

/-- Saved version 29 blocks carry the compressor's own mark. -/
theorem marked_saved {ord : VarOrd} {b : MapBlock} {s x : Bytes} (h : serialize Toy.marked ord b = .ok s) :
    s ≠ 29 :: 1 :: x := by
  intro he
  subst he
  unfold serialize at h
  cases hv : rassert (decide (25 ≤ b.version ∧ b.version ≤ 29)) "Invalid mapblock version." with
  | error e => rw [hv] at h; cases h
  | ok u =>
    rw [hv] at h
    have hver : 25 ≤ b.version ∧ b.version ≤ 29 := by
      unfold rassert at hv
      split at hv
      · next h => exact of_decide_eq_true h
      · cases hv
    simp only [res_bind_ok] at h
    split at h
    · cases hb : wrBody29 ord b with
      | error e => rw [hb] at h; cases h
      | ok body =>
        rw [hb] at h
        simp only [res_bind_ok, res_pure, Except.ok.injEq] at h
        have h1 := (List.cons.inj h).2
        exact absurd (List.cons.inj h1).1 (by decide)
    · next hlt =>
      cases hb : wrBody28 Toy.marked ord b with
      | error e => rw [hb] at h; cases h
      | ok body =>
        rw [hb] at h
        simp only [res_bind_ok, res_pure, Except.ok.injEq] at h
        unfold encU8 byte at h
        simp only [List.cons_append, List.nil_append, List.cons.injEq] at h
        have h1 := congrArg UInt8.toNat h.1
        simp at h1
        omega

/-- Replace air at (0,0,0) only. -/
def idleArgs : InstArgs :=
  { runArgs false "replacenodes" "map" none with
    area := some ⟨⟨0, 0, 0⟩, ⟨0, 0, 0⟩⟩, node := some "air", newNode := some "default:stone" }

/-- **C103 is false of `replacenodes`.**  A block with the name in its table is saved again though no node of that
name is selected, and need not get the same bytes (another compression level, say). -/
theorem C103_false : ¬ ∀ (env : Env) (args : InstArgs) (t t' : Table) (evs : List Event) (old new : String),
    EnvOk env → GoodTable t → args.command = "replacenodes" → AreaOk args.area → args.node = some old →
    args.newNode = some new → AllBlocks env.codec t UniqueNames → Completes env args t t' evs →
    IdleKept env.codec t t' fun bp b =>
      ∃ i, i < 4096 ∧ Selected args.area args.invert (posAt bp i) ∧ IsNode b (some (toBytes old)) i := by
  intro hall
  have hw := Toy.block_wf 29 (by omega)
  obtain ⟨s, -, hs⟩ := serialize_spec Toy.marked_lawful (fun _ _ => Nat.le_refl _) Toy.ord_lawful hw
  obtain ⟨x, hx⟩ : ∃ x, Represents Toy.marked (29 :: 1 :: x) (stored (Toy.block 29)) := by
    rcases hs with ⟨hv, z, d, -, h2, h3⟩ | ⟨⟨-, hv⟩, -⟩
    · exact ⟨d, .inl ⟨hv, _, d, rfl, rfl, h3⟩⟩
    · exact absurd hv (by decide)
  have huniq : ∀ {P : MapBlock → Prop}, P (stored (Toy.block 29)) → AllBlocks Toy.marked [(0, 29 :: 1 :: x)] P := by
    intro P hP k d b hm hr
    cases List.mem_singleton.1 hm
    rw [represents_unique hr hx]
    exact hP
  have hE : EnvOk { editEnv [(0, 29 :: 1 :: x)] with codec := Toy.marked } :=
    ⟨Toy.marked_lawful, fun _ _ => Nat.le_refl _, fun _ => Toy.ord_lawful⟩
  have hg : GoodTable [((0 : Int), (29 :: 1 :: x : Bytes))] := by
    refine ⟨by show [(0 : Int)].Nodup; decide, ?_⟩
    intro r hr
    cases List.mem_singleton.1 hr
    exact (by decide : ValidKey 0)
  have ha : AreaOk idleArgs.area := by intro a h; cases h; decide
  obtain ⟨t', evs, h⟩ := C35_replacenodes_completes { editEnv [(0, 29 :: 1 :: x)] with codec := Toy.marked } idleArgs
    ⟨_, [⟨"pos", "INT", 1⟩, ⟨"data", "BLOB", 0⟩]⟩ "air" "default:stone" hE (fun _ => rfl) (editEnv_file _) ⟨_, rfl⟩ hg
    (by rw [← verifyArgs_iff]; decide) (by unfold CommandRefuses; simp [idleArgs, runArgs]) rfl ha rfl rfl (by decide) rfl
    (by intro h; cases h) (huniq fun e he => Nat.le_trans (toy_small 29 e he) (by decide))
  have hbp : ValidBlockPos ⟨0, 0, 0⟩ := by decide
  have hsel : ∀ i, i < 4096 → Selected idleArgs.area idleArgs.invert (posAt ⟨0, 0, 0⟩ i) → i = 0 := by
    intro i hi hp
    have : InBox ⟨0, 0, 0⟩ ⟨0, 0, 0⟩ (posAt ⟨0, 0, 0⟩ i) := by
      have := (selected_iff ⟨⟨0, 0, 0⟩, ⟨0, 0, 0⟩⟩ false _).1 hp
      simpa using this
    unfold InBox posAt at this
    simp only at this
    omega
  have hkept := hall _ _ _ _ _ "air" "default:stone" hE hg rfl ha rfl rfl (huniq (toy_unique 29)) h ⟨0, 0, 0⟩ (29 :: 1 :: x) _ hbp
    (List.mem_singleton.2 rfl) hx (by
      rintro ⟨i, hi, h1, h2⟩
      cases hsel i hi h1
      have h3 := h2 _ rfl
      have hnd : nodeName (stored (Toy.block 29)) 0 = some (ascii "a") := rfl
      rw [hnd] at h3
      exact absurd h3 (by decide))
  obtain ⟨D, g, e, -⟩ := change_edits h rfl replaceNodes_command (by decide) hg.nodup
    (replaceNodes_eq _ _ (old := "air") (new := "default:stone") rfl rfl)
  obtain ⟨d', h1, h2⟩ := e.on (0, 29 :: 1 :: x) (mem_hits.2 ⟨List.mem_singleton.2 rfl,
    (by decide : areaKeeps idleArgs.area idleArgs.invert true 0 = true), rfl⟩)
  have hk := Table.get?_of_mem e.nodup (k := 0) (d := 29 :: 1 :: x) hkept
  rw [show t'.get? 0 = _ from h1] at hk
  cases hk
  rcases h2 with ⟨⟨er, h2⟩, -⟩ | ⟨b, ob, n, h2, h3, h4⟩
  · have h2' : deserialize Toy.marked (29 :: 1 :: x) = _ := h2
    rw [deserialize_iff.2 hx] at h2'
    cases h2'
  · have hb := represents_unique (deserialize_iff.1 h2) hx
    subst hb
    rcases h4 with ⟨h4, -⟩ | ⟨b', m, -, h4⟩
    · subst h4
      unfold replaceEdit at h3
      have hid : NameIdMap.getId (stored (Toy.block 29)).nimap (toBytes "air") = some 0 := by decide
      rw [hid] at h3
      simp only at h3
      cases hd : doReplace (editEnv [(0, 29 :: 1 :: x)]).build (stored (Toy.block 29)) 0 0 (toBytes "default:stone") idleArgs.area
        idleArgs.invert with
      | error e => erw [hd] at h3; cases h3
      | ok r => erw [hd] at h3; cases h3
    · exact marked_saved h4 rfl

/-! ## Example -/

/-- Delete metadata at (5,0,0), where there is none. -/
def noneArgs : InstArgs :=
  { runArgs false "deletemeta" "map" none with area := some ⟨⟨5, 0, 0⟩, ⟨5, 0, 0⟩⟩ }

/-- The hypotheses are met: a block with metadata elsewhere keeps its bytes. -/
example : ∃ t' evs, Completes (editEnv (toyMap (Toy.block 29))) noneArgs (toyMap (Toy.block 29)) t' evs ∧
    GoodTable (toyMap (Toy.block 29)) ∧ AreaOk noneArgs.area ∧ (keyOf ⟨0, 0, 0⟩, Toy.data (Toy.block 29)) ∈ t' := by
  have hw := Toy.block_wf 29 (by omega)
  have h2 := toyMap_all hw (metaInside_stored (toy_metaInside 29))
  have ha : AreaOk noneArgs.area := by intro a h; cases h; decide
  obtain ⟨t', evs, h⟩ := C40_deletemeta_completes (editEnv (toyMap (Toy.block 29))) noneArgs _
    (editEnv_ok _) (fun _ => rfl) (editEnv_file _) ⟨_, rfl⟩ (toyMap_good _)
    (by rw [← verifyArgs_iff]; decide) rfl ha rfl (by intro h; cases h) (fun _ => h2)
  refine ⟨t', evs, h, toyMap_good _, ha, ?_⟩
  refine C103_deletemeta _ _ _ _ _ (toyMap_good _) rfl ha h ⟨0, 0, 0⟩ _ _ (by decide) (.head _) (Toy.data_rep hw) ?_
  rintro ⟨e, he, hsel, -⟩
  have he : e.1 = 0 := by
    have hm : (stored (Toy.block 29)).metas.map (·.1) = [0] := by decide
    have := List.mem_map_of_mem (f := (·.1)) he
    rw [hm] at this
    simpa using this
  rw [he] at hsel
  have := (selected_iff ⟨⟨5, 0, 0⟩, ⟨5, 0, 0⟩⟩ false _).1 hsel
  revert this
  decide

end MapEditr
