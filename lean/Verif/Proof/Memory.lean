import Verif.Model.Memory
import Verif.Spec.Memory
/-! # Lemmas: the decoder with its buffers and positions -/

namespace MapEditr.Raw

/-- What was asked of memory while `n` bytes left to read became `n'`, but for `k` bytes and `q` entries. -/
structure Asks (k q n n' : Nat) (h h' : Heap) : Prop where
  inflated : h.inflated ≤ h'.inflated
  bufs : h'.bufs.sum + n' + h.inflated ≤ h.bufs.sum + n + k + h'.inflated
  caps : h'.caps.sum + 16 * n' + 16 * h.inflated ≤ h.caps.sum + 16 * n + q + 16 * h'.inflated

theorem Asks.trans {k q k' q' n n1 n2 : Nat} {h h1 h2 : Heap} (a : Asks k q n n1 h h1) (b : Asks k' q' n1 n2 h1 h2) :
    Asks (k + k') (q + q') n n2 h h2 := by
  obtain ⟨a1, a2, a3⟩ := a
  obtain ⟨b1, b2, b3⟩ := b
  exact ⟨by omega, by omega, by omega⟩

theorem Asks.mono {k q k' q' n n1 n2 : Nat} {h h1 : Heap} (a : Asks k q n n1 h h1) (hk : k ≤ k') (hq : q ≤ q') (hn : n2 ≤ n1) :
    Asks k' q' n n2 h h1 := by
  obtain ⟨a1, a2, a3⟩ := a
  exact ⟨by omega, by omega, by omega⟩

theorem Asks.refl (h : Heap) (n : Nat) : Asks 0 0 n n h h := ⟨by omega, by omega, by omega⟩

/-- `m` on a cursor does what `p` does on the bytes left to read, asking for no more memory than there are bytes,
but for `k` bytes and `q` entries. -/
def Does (k q : Nat) (m : M Cur α) (p : P α) : Prop :=
  ∀ c h, c.pos ≤ c.data.length → c.data.length < 2 ^ 63 →
    (∀ a r, p c.rest = .ok (a, r) → ∃ pos h', m c h = (.ok a, ⟨c.data, pos⟩, h') ∧ c.pos ≤ pos ∧ pos ≤ c.data.length ∧
        r = c.data.drop pos ∧ Asks k q c.rest.length r.length h h') ∧
    ∀ e, p c.rest = .error e → (m c h).1 = .error e ∧ Asks k q c.rest.length 0 h (m c h).2.2

theorem Does.mono {k q k' q' : Nat} {m : M Cur α} {p : P α} (h : Does k q m p) (hk : k ≤ k') (hq : q ≤ q') : Does k' q' m p := by
  intro c hp h1 h2
  obtain ⟨ho, he⟩ := h c hp h1 h2
  refine ⟨fun a r e => ?_, fun e h => ⟨(he e h).1, (he e h).2.mono hk hq (Nat.le_refl _)⟩⟩
  obtain ⟨pos, h', h3, h4, h5, h6, h7⟩ := ho a r e
  exact ⟨pos, h', h3, h4, h5, h6, h7.mono hk hq (Nat.le_refl _)⟩

theorem bind_ok {m : M ρ α} {f : α → M ρ β} {r r' : ρ} {h h' : Heap} {a : α} (e : m r h = (.ok a, r', h')) :
    (m >>= f) r h = f a r' h' := by
  show (match m r h with
    | (.ok a, r, h) => f a r h
    | (.error e, r, h) => (.error e, r, h)) = _
  rw [e]

theorem bind_error {m : M ρ α} {f : α → M ρ β} {r r' : ρ} {h h' : Heap} {x : Stop} (e : m r h = (.error x, r', h')) :
    (m >>= f) r h = (.error x, r', h') := by
  show (match m r h with
    | (.ok a, r, h) => f a r h
    | (.error e, r, h) => (.error e, r, h)) = _
  rw [e]

theorem does_bind {k q k' q' : Nat} {m : M Cur α} {p : P α} {f : α → M Cur β} {g : α × Bytes → Res (β × Bytes)}
    (hm : Does k q m p) (hf : ∀ a, Does k' q' (f a) fun s => g (a, s)) : Does (k + k') (q + q') (m >>= f) fun s => p s >>= g := by
  intro c hp h1 h2
  obtain ⟨ho, he⟩ := hm c hp h1 h2
  simp only
  cases hpc : p c.rest with
  | error e =>
    obtain ⟨h4, h5⟩ := he e hpc
    refine ⟨fun a r e => (by cases e), fun e' e'' => ?_⟩
    cases e''
    have h6 : m c hp = (.error e, (m c hp).2.1, (m c hp).2.2) := by rw [← h4]
    rw [bind_error h6]
    exact ⟨rfl, h5.mono (by omega) (by omega) (Nat.le_refl _)⟩
  | ok ar =>
    obtain ⟨a, r⟩ := ar
    obtain ⟨pos, h', h4, h5, h6, rfl, h7⟩ := ho a r hpc
    rw [bind_ok h4]
    obtain ⟨ho', he'⟩ := hf a ⟨c.data, pos⟩ h' h6 h2
    refine ⟨fun b r e => ?_, fun e e' => ?_⟩
    · obtain ⟨pos', h'', h9, h10, h11, h12, h13⟩ := ho' b r e
      exact ⟨pos', h'', h9, Nat.le_trans h5 h10, h11, h12, h7.trans h13⟩
    · obtain ⟨h8, h9⟩ := he' e e'
      exact ⟨h8, h7.trans h9⟩

/-- What asks for nothing is not counted. -/
theorem does_free {k q : Nat} {m : M Cur α} {p : P α} {f : α → M Cur β} {g : α × Bytes → Res (β × Bytes)}
    (hm : Does 0 0 m p) (hf : ∀ a, Does k q (f a) fun s => g (a, s)) : Does k q (m >>= f) fun s => p s >>= g := by
  have := does_bind hm hf
  rwa [Nat.zero_add, Nat.zero_add] at this

theorem does_pure (a : α) : Does 0 0 (pure a) fun s => .ok (a, s) := fun c h h1 _ =>
  ⟨fun _ _ e => by cases e; exact ⟨c.pos, h, rfl, Nat.le_refl _, h1, rfl, Asks.refl _ _⟩, fun _ e => by cases e⟩

theorem does_fail (e : MbErr) : Does (α := α) 0 0 (fail e) fun _ => .error (.err e) := fun _ h _ _ =>
  ⟨fun _ _ e => (by cases e), fun _ e => by
    cases e
    exact ⟨rfl, (Asks.refl h _).mono (Nat.le_refl _) (Nat.le_refl _) (Nat.zero_le _)⟩⟩

theorem rest_length (c : Cur) : c.rest.length = c.data.length - c.pos := List.length_drop

/-! ## Numbers and strings -/

theorem copyInto_all {buf bs : Bytes} (h : bs.length = buf.length) : copyInto buf bs = bs := by
  unfold copyInto
  rw [h, List.drop_length, List.append_nil]

theorem readExact_ok {c : Cur} {buf : Bytes} (h : Heap) (hl : buf.length ≤ c.rest.length) :
    readExact buf c h = (.ok (c.rest.take buf.length), { c with pos := c.pos + buf.length }, h) := by
  unfold readExact
  rw [if_neg (by omega), copyInto_all (by rw [List.length_take]; omega)]

theorem readExact_short {c : Cur} {buf : Bytes} (h : Heap) (hl : c.rest.length < buf.length) :
    readExact buf c h = (badData, c, h) := by
  unfold readExact
  rw [if_pos hl]

theorem does_readExact (buf : Bytes) : Does 0 0 (readExact buf) (rdN buf.length) := by
  intro c h h1 h2
  unfold rdN
  have hr := rest_length c
  by_cases hl : c.rest.length < buf.length
  · rw [if_pos hl, readExact_short h hl]
    refine ⟨fun _ _ e => (by cases e), fun _ e => ?_⟩
    cases e
    exact ⟨rfl, (Asks.refl h _).mono (Nat.le_refl _) (Nat.le_refl _) (Nat.zero_le _)⟩
  · rw [if_neg hl]
    refine ⟨fun _ _ e => ?_, fun _ e => (by cases e)⟩
    cases e
    refine ⟨c.pos + buf.length, h, readExact_ok h (by omega), by omega, by omega, ?_, ?_⟩
    · show List.drop _ (List.drop _ _) = _
      rw [List.drop_drop]
    · exact (Asks.refl h c.rest.length).mono (Nat.le_refl _) (Nat.le_refl _) (by rw [List.length_drop]; omega)

/-- A reader that is another one, with its result looked at differently. -/
theorem does_map {k q : Nat} {m : M Cur α} {p : P α} {p' : P β} (f : α → β) (hm : Does k q m p)
    (hp : ∀ s, p' s = (p s).map fun x => (f x.1, x.2)) : Does k q (m >>= fun a => pure (f a)) p' := by
  have : p' = fun s => p s >>= fun x => .ok (f x.1, x.2) := by
    funext s
    rw [hp]
    cases p s <;> rfl
  rw [this]
  exact does_bind (g := fun x => .ok (f x.1, x.2)) hm fun a => does_pure (f a)

theorem does_u8 : Does 0 0 rdU8 MapEditr.rdU8 := does_map _ (does_readExact [0]) fun s => by
  match s with
  | [] => rfl
  | a :: t => rfl

theorem rdU16_two (a b : UInt8) (t : Bytes) : MapEditr.rdU16 (a :: b :: t) = .ok (a.toNat * 256 + b.toNat, t) := rfl

theorem does_u16 : Does 0 0 rdU16 MapEditr.rdU16 :=
  does_map (fun b : Bytes => (b.getD 0 0).toNat * 256 + (b.getD 1 0).toNat) (does_readExact [0, 0]) fun s => by
    match s with
    | [] => rfl
    | [a] => rfl
    | a :: b :: t =>
      rw [rdU16_two]
      show _ = Except.map _ (rdN 2 _)
      unfold rdN
      rw [if_neg (by simp)]
      rfl

theorem does_u32 : Does 0 0 rdU32 MapEditr.rdU32 :=
  does_map (fun b : Bytes => ((b.getD 0 0).toNat * 256 + (b.getD 1 0).toNat) * 65536 + ((b.getD 2 0).toNat * 256 + (b.getD 3 0).toNat))
    (does_readExact [0, 0, 0, 0]) fun s => by
    match s with
    | [] => rfl
    | [a] => rfl
    | [a, b] => rfl
    | [a, b, c] => rfl
    | a :: b :: c :: d :: t =>
      show _ = Except.map _ (rdN 4 _)
      unfold rdN
      rw [if_neg (by simp)]
      rfl

theorem does_i32 : Does 0 0 rdI32 MapEditr.rdI32 :=
  does_map (fun a : Nat => if a < 2147483648 then (a : Int) else (a : Int) - 4294967296) does_u32 fun s => by
    unfold MapEditr.rdI32
    cases MapEditr.rdU32 s <;> rfl

theorem vec_length (o : Outside) (k n : Nat) : ((List.range n).map (o.junk k)).length = n := by
  rw [List.length_map, List.length_range]

theorem does_tryReadN (o : Outside) (n : Nat) : Does 0 0 (tryReadN o n) (rdN n) := by
  intro c h h1 h2
  have hr := rest_length c
  unfold tryReadN
  have hs : Checked.u64sub o.build c.data.length c.pos = .ok (c.data.length - c.pos) := by
    unfold Checked.u64sub
    rw [if_pos h1]
  rw [bind_ok (m := reader) rfl, bind_ok (m := lift _) (a := c.data.length - c.pos) (r' := c) (h' := h) (by unfold lift; rw [hs])]
  unfold rdN
  by_cases hl : c.rest.length < n
  · rw [if_pos hl, if_pos (by omega)]
    refine ⟨fun _ _ e => (by cases e), fun _ e => ?_⟩
    cases e
    exact ⟨rfl, (Asks.refl h _).mono (Nat.le_refl _) (Nat.le_refl _) (Nat.zero_le _)⟩
  · rw [if_neg hl, if_neg (by omega)]
    have hv := vec_length o h.bufs.length n
    refine ⟨fun _ _ e => ?_, fun _ e => (by cases e)⟩
    cases e
    refine ⟨c.pos + n, { h with bufs := h.bufs ++ [n] }, ?_, by omega, by omega, ?_, ?_⟩
    · rw [bind_ok (m := vecWithLen o n) rfl, readExact_ok _ (by rw [hv]; omega), hv]
    · show List.drop _ (List.drop _ _) = _
      rw [List.drop_drop]
    · constructor
      · exact Nat.le_refl _
      · simp only [List.sum_append, List.sum_cons, List.sum_nil, List.length_drop]
        omega
      · simp only [List.length_drop]
        omega

theorem does_str16 (o : Outside) : Does 0 0 (rdStr16 o) MapEditr.rdStr16 := does_free does_u16 fun n => does_tryReadN o n

theorem does_str32 (o : Outside) : Does 0 0 (rdStr32 o) MapEditr.rdStr32 := does_free does_u32 fun n => does_tryReadN o n

theorem does_loop {f : β → M Cur β} {g : β → P β} (h : ∀ b, Does 0 0 (f b) (g b)) : ∀ (n : Nat) (b : β),
    Does 0 0 (loop f n b) (loopP g n b)
  | 0, b => does_pure b
  | n + 1, b => does_free (h b) fun b => does_loop h n b

theorem does_ite {k q : Nat} (c : Prop) [Decidable c] {m m' : M Cur α} {p p' : P α} (h : Does k q m p) (h' : Does k q m' p') :
    Does k q (if c then m else m') fun s => if c then p s else p' s := by
  split <;> assumption

/-! ## Readers that fill buffers -/

/-- Nothing was asked of memory. -/
structure Same (h h' : Heap) : Prop where
  bufs : h'.bufs = h.bufs
  caps : h'.caps = h.caps
  inflated : h'.inflated = h.inflated

theorem Same.refl (h : Heap) : Same h h := ⟨rfl, rfl, rfl⟩

theorem Same.trans {h h1 h2 : Heap} (a : Same h h1) (b : Same h1 h2) : Same h h2 :=
  ⟨b.1.trans a.1, b.2.trans a.2, b.3.trans a.3⟩

/-- A reader that fills a buffer with the next bytes, or fails. -/
structure Fills (fill : Bytes → M ρ Bytes) (rest : ρ → Bytes) (step : ρ → Nat → ρ) : Prop where
  ok : ∀ r h buf, buf.length ≤ (rest r).length →
    ∃ h', fill buf r h = (.ok ((rest r).take buf.length), step r buf.length, h') ∧ Same h h'
  short : ∀ r h buf, (rest r).length < buf.length → ∃ r' h', fill buf r h = (badData, r', h') ∧ Same h h'
  step : ∀ r n, rest (step r n) = (rest r).drop n

/-- The cursor after `n` bytes more. -/
def Cur.skip (c : Cur) (n : Nat) : Cur := { c with pos := c.pos + n }

theorem skip_three (c : Cur) : ((c.skip 8192).skip 4096).skip 4096 = ⟨c.data, c.pos + 16384⟩ := by
  unfold Cur.skip
  simp only [Nat.add_assoc]

theorem fills_cursor : Fills readExact Cur.rest Cur.skip where
  ok _ h _ hl := ⟨h, readExact_ok h hl, Same.refl h⟩
  short c h _ hl := ⟨c, h, readExact_short h hl, Same.refl h⟩
  step c n := by
    show List.drop (c.pos + n) c.data = List.drop _ (List.drop _ _)
    rw [List.drop_drop]

theorem readSome_some {o : Outside} {n : Nat} (hn : 0 < n) {z : Zlib} (hz : z.left ≠ []) (h : Heap) :
    ∃ k h', 0 < k ∧ k ≤ n ∧ k ≤ z.left.length ∧ readSome o n z h = (.ok (z.left.take k), { z with left := z.left.drop k }, h') ∧
      Same h h' := by
  obtain ⟨l, fin⟩ := z
  cases l with
  | nil => exact absurd rfl hz
  | cons x t =>
    refine ⟨min (min (max 1 (o.cut h.reads)) n) (t.length + 1), { h with reads := h.reads + 1 }, by omega, by omega,
      by rw [List.length_cons]; omega, ?_, ⟨rfl, rfl, rfl⟩⟩
    show (Except.ok (List.take (min (max 1 (o.cut h.reads)) n) (x :: t)),
      (⟨List.drop (min (max 1 (o.cut h.reads)) n) (x :: t), fin⟩ : Zlib), _) = _
    by_cases hk : min (max 1 (o.cut h.reads)) n ≤ t.length + 1
    · rw [Nat.min_eq_left hk]
    · have h1 : min (min (max 1 (o.cut h.reads)) n) (t.length + 1) = t.length + 1 := Nat.min_eq_right (by omega)
      rw [h1, List.take_of_length_le (by rw [List.length_cons]; omega), List.take_of_length_le (by rw [List.length_cons]; omega),
        List.drop_of_length_le (by rw [List.length_cons]; omega), List.drop_of_length_le (by rw [List.length_cons]; omega)]

theorem readSome_end {o : Outside} {n : Nat} {z : Zlib} (hz : z.left = []) {t : Nat} (hf : z.fin = some t) (h : Heap) :
    ∃ h', readSome o n z h = (.ok [], z, h') ∧ Same h h' := by
  obtain ⟨l, fin⟩ := z
  cases hz
  cases hf
  exact ⟨_, rfl, rfl, rfl, rfl⟩

theorem readSome_fail {o : Outside} {n : Nat} {z : Zlib} (hz : z.left = []) (hf : z.fin = none) (h : Heap) :
    ∃ h', readSome o n z h = (badData, z, h') ∧ Same h h' := by
  obtain ⟨l, fin⟩ := z
  cases hz
  cases hf
  exact ⟨_, rfl, rfl, rfl, rfl⟩

theorem take_ne_nil {l : Bytes} {k : Nat} (h : 0 < k) (hk : k ≤ l.length) : l.take k ≠ [] := by
  intro e
  have := congrArg List.length e
  rw [List.length_take, List.length_nil] at this
  omega

theorem readExactLoop_ok (o : Outside) : ∀ (n : Nat) (buf : Bytes) (z : Zlib) (h : Heap), buf.length ≤ n →
    buf.length ≤ z.left.length → ∃ h', readExactLoop o n buf z h =
      (.ok (z.left.take buf.length), { z with left := z.left.drop buf.length }, h') ∧ Same h h'
  | n, [], z, h, _, _ => by
    refine ⟨h, ?_, Same.refl h⟩
    unfold readExactLoop
    rfl
  | 0, x :: t, z, h, h1, _ => absurd h1 (by simp)
  | n + 1, x :: t, z, h, h1, h2 => by
    unfold readExactLoop
    have hl : (x :: t).length = t.length + 1 := rfl
    obtain ⟨k, h', k1, k2, k3, e, s⟩ := readSome_some (o := o) (n := (x :: t).length) (by omega) (z := z)
      (fun e => by rw [e] at h2; simp at h2) h
    have hg : (z.left.take k).length = k := by
      rw [List.length_take]
      omega
    rw [bind_ok e, if_neg (take_ne_nil k1 k3), hg]
    have hd : ((x :: t).drop k).length = t.length + 1 - k := by rw [List.length_drop, hl]
    obtain ⟨h'', e', s'⟩ := readExactLoop_ok o n ((x :: t).drop k) { z with left := z.left.drop k } h' (by omega)
      (by show _ ≤ (z.left.drop k).length; rw [hd, List.length_drop]; omega)
    refine ⟨h'', ?_, s.trans s'⟩
    rw [bind_ok e']
    show (Except.ok (z.left.take k ++ (z.left.drop k).take ((x :: t).drop k).length),
      (⟨(z.left.drop k).drop ((x :: t).drop k).length, z.fin⟩ : Zlib), h'') = _
    have hx : (x :: t).length = k + ((x :: t).drop k).length := by omega
    rw [List.drop_drop, hx, List.take_add]

theorem readExactLoop_short (o : Outside) : ∀ (n : Nat) (buf : Bytes) (z : Zlib) (h : Heap), buf.length ≤ n →
    z.left.length < buf.length → ∃ z' h', readExactLoop o n buf z h = (badData, z', h') ∧ Same h h'
  | _, [], _, _, _, h2 => absurd h2 (by simp)
  | 0, x :: t, z, h, h1, _ => absurd h1 (by simp)
  | n + 1, x :: t, z, h, h1, h2 => by
    unfold readExactLoop
    have hl : (x :: t).length = t.length + 1 := rfl
    by_cases hz : z.left = []
    · cases hf : z.fin with
      | none =>
        obtain ⟨h', e, s⟩ := readSome_fail (o := o) (n := (x :: t).length) hz hf h
        exact ⟨_, _, bind_error e, s⟩
      | some m =>
        obtain ⟨h', e, s⟩ := readSome_end (o := o) (n := (x :: t).length) hz hf h
        rw [bind_ok e, if_pos rfl]
        exact ⟨_, _, rfl, s⟩
    · obtain ⟨k, h', k1, k2, k3, e, s⟩ := readSome_some (o := o) (n := (x :: t).length) (by omega) hz h
      have hg : (z.left.take k).length = k := by
        rw [List.length_take]
        omega
      rw [bind_ok e, if_neg (take_ne_nil k1 k3), hg]
      have hd : ((x :: t).drop k).length = t.length + 1 - k := by rw [List.length_drop, hl]
      obtain ⟨z', h'', e', s'⟩ := readExactLoop_short o n ((x :: t).drop k) { z with left := z.left.drop k } h' (by omega)
        (by show (z.left.drop k).length < _; rw [List.length_drop]; omega)
      exact ⟨_, _, bind_error e', s.trans s'⟩

theorem fills_zlib (o : Outside) : Fills (readExactZ o) Zlib.left (fun z n => { z with left := z.left.drop n }) where
  ok z h buf hl := readExactLoop_ok o _ buf z h (Nat.le_refl _) hl
  short z h buf hl := readExactLoop_short o _ buf z h (Nat.le_refl _) hl
  step _ _ := rfl

theorem readToEndLoop_ok (o : Outside) : ∀ (n : Nat) (z : Zlib) (h : Heap) (t : Nat), z.left.length < n → z.fin = some t →
    ∃ h', readToEndLoop o n z h = (.ok z.left, { z with left := [] }, h') ∧ Same h h'
  | 0, _, _, _, h1, _ => absurd h1 (by omega)
  | n + 1, z, h, t, h1, hf => by
    unfold readToEndLoop
    by_cases hz : z.left = []
    · obtain ⟨h', e, s⟩ := readSome_end (o := o) (n := max 1 (o.room h.reads)) hz hf h
      rw [bind_ok e, if_pos rfl]
      refine ⟨h', ?_, s⟩
      obtain ⟨l, fin⟩ := z
      cases hz
      rfl
    · obtain ⟨k, h', k1, k2, k3, e, s⟩ := readSome_some (o := o) (n := max 1 (o.room h.reads)) (by omega) hz h
      rw [bind_ok e, if_neg (take_ne_nil k1 k3)]
      obtain ⟨h'', e', s'⟩ := readToEndLoop_ok o n { z with left := z.left.drop k } h' t
        (by show (z.left.drop k).length < _; rw [List.length_drop]; omega) hf
      refine ⟨h'', ?_, s.trans s'⟩
      rw [bind_ok e']
      show (Except.ok (z.left.take k ++ z.left.drop k), (⟨[], z.fin⟩ : Zlib), h'') = _
      rw [List.take_append_drop]

theorem readToEndLoop_fail (o : Outside) : ∀ (n : Nat) (z : Zlib) (h : Heap), z.left.length < n → z.fin = none →
    ∃ z' h', readToEndLoop o n z h = (badData, z', h') ∧ Same h h'
  | 0, _, _, h1, _ => absurd h1 (by omega)
  | n + 1, z, h, h1, hf => by
    unfold readToEndLoop
    by_cases hz : z.left = []
    · obtain ⟨h', e, s⟩ := readSome_fail (o := o) (n := max 1 (o.room h.reads)) hz hf h
      exact ⟨_, _, bind_error e, s⟩
    · obtain ⟨k, h', k1, k2, k3, e, s⟩ := readSome_some (o := o) (n := max 1 (o.room h.reads)) (by omega) hz h
      rw [bind_ok e, if_neg (take_ne_nil k1 k3)]
      obtain ⟨z', h'', e', s'⟩ := readToEndLoop_fail o n { z with left := z.left.drop k } h'
        (by show (z.left.drop k).length < _; rw [List.length_drop]; omega) hf
      exact ⟨_, _, bind_error e', s.trans s'⟩

/-! ## Node data -/

theorem u16s_go : ∀ (src : Bytes) (dst : List Nat), src.length = 2 * dst.length → readU16Into.go src dst = u16sOf src
  | [], [], _ => rfl
  | [], _ :: _, h => absurd h (by simp)
  | [_], dst, h => by
    rw [List.length_singleton] at h
    omega
  | _ :: _ :: _, [], h => absurd h (by simp)
  | a :: b :: s, _ :: t, h => by
    show _ :: readU16Into.go s t = _ :: u16sOf s
    rw [u16s_go s t (by simp only [List.length_cons] at h; omega)]

theorem bytes_go : ∀ (src : List Nat) (dst : Bytes), dst.length = 2 * src.length → writeU16Into.go src dst = bytesOfU16s src
  | [], [], _ => rfl
  | [], _ :: _, h => absurd h (by simp)
  | _ :: _, [], h => absurd h (by simp)
  | _ :: s, [_], h => by
    simp only [List.length_cons, List.length_nil] at h
    omega
  | n :: s, _ :: _ :: t, h => by
    show _ :: _ :: writeU16Into.go s t = [_, _] ++ bytesOfU16s s
    rw [bytes_go s t (by simp only [List.length_cons] at h; omega)]
    rfl

theorem vecs_sum (l : List Nat) : (l ++ [NODE_COUNT * 2]).sum = l.sum + 8192 ∧ (l ++ [2 * NODE_COUNT]).sum = l.sum + 8192 ∧
    (l ++ [NODE_COUNT]).sum = l.sum + 4096 := by
  simp [NODE_COUNT]

/-- The cost of reading nodes. -/
structure Nodes24 (h h' : Heap) : Prop where
  bufs : h'.bufs.sum ≤ h.bufs.sum + 24576
  caps : h'.caps = h.caps
  inflated : h'.inflated = h.inflated

theorem nodeData_ok {fill : Bytes → M ρ Bytes} {rest : ρ → Bytes} {step : ρ → Nat → ρ} (hf : Fills fill rest step)
    (o : Outside) (r : ρ) (h : Heap) (hl : 16384 ≤ (rest r).length) :
    ∃ nd h', rdNodeData o fill r h = (.ok nd, step (step (step r 8192) 4096) 4096, h') ∧
      MapEditr.rdNodeData (rest r) = .ok (nd, (rest r).drop 16384) ∧ Nodes24 h h' := by
  have hN : NODE_COUNT = 4096 := rfl
  unfold rdNodeData
  rw [bind_ok (m := vecWithLen o _) rfl]
  have v1 := vec_length o h.bufs.length (NODE_COUNT * 2)
  obtain ⟨h1, e1, s1⟩ := hf.ok r { h with bufs := h.bufs ++ [NODE_COUNT * 2] } _ (Nat.le_trans (Nat.le_of_eq v1) (by omega))
  rw [v1] at e1
  rw [bind_ok e1, bind_ok (m := vecWithLen16 o _) rfl]
  have hlen : ((rest r).take (NODE_COUNT * 2)).length = NODE_COUNT * 2 := by
    rw [List.length_take]
    omega
  rw [bind_ok (m := lift _) (a := u16sOf ((rest r).take (NODE_COUNT * 2))) (by
    unfold lift readU16Into
    have hv : ∀ f : Nat → Nat, ((List.range NODE_COUNT).map f).length = NODE_COUNT := fun f => by
      rw [List.length_map, List.length_range]
    rw [if_pos (by rw [hv, hlen]; omega), u16s_go _ _ (by rw [hv, hlen]; omega)])]
  rw [bind_ok (m := vecWithLen o _) rfl]
  have hr1 := hf.step r (NODE_COUNT * 2)
  have v2 := vec_length o (h1.bufs ++ [2 * NODE_COUNT]).length NODE_COUNT
  obtain ⟨h2, e2, s2⟩ := hf.ok (step r (NODE_COUNT * 2)) { h1 with bufs := (h1.bufs ++ [2 * NODE_COUNT]) ++ [NODE_COUNT] } _
    (Nat.le_trans (Nat.le_of_eq v2) (by rw [hr1, List.length_drop]; omega))
  rw [v2] at e2
  rw [bind_ok e2, bind_ok (m := vecWithLen o _) rfl]
  have hr2 := hf.step (step r (NODE_COUNT * 2)) NODE_COUNT
  have v3 := vec_length o h2.bufs.length NODE_COUNT
  obtain ⟨h3, e3, s3⟩ := hf.ok (step (step r (NODE_COUNT * 2)) NODE_COUNT) { h2 with bufs := h2.bufs ++ [NODE_COUNT] } _
    (Nat.le_trans (Nat.le_of_eq v3) (by rw [hr2, hr1, List.length_drop, List.length_drop]; omega))
  rw [v3] at e3
  rw [bind_ok e3]
  refine ⟨_, h3, rfl, ?_, ?_⟩
  · unfold MapEditr.rdNodeData rdN
    rw [if_neg (by omega)]
    show (if ((rest r).drop (NODE_COUNT * 2)).length < NODE_COUNT then badData else _) >>= _ = _
    rw [if_neg (by rw [List.length_drop]; omega)]
    show (if (((rest r).drop (NODE_COUNT * 2)).drop NODE_COUNT).length < NODE_COUNT then badData else _) >>= _ = _
    rw [if_neg (by rw [List.length_drop, List.length_drop]; omega)]
    rw [hr2, hr1, List.drop_drop, List.drop_drop]
    rfl
  · have a1 := (vecs_sum h.bufs).1
    have a2 := (vecs_sum h1.bufs).2.1
    have a3 := (vecs_sum (h1.bufs ++ [2 * NODE_COUNT])).2.2
    have a4 := (vecs_sum h2.bufs).2.2
    constructor
    · rw [s3.bufs]
      show (h2.bufs ++ [NODE_COUNT]).sum ≤ _
      rw [a4, s2.bufs]
      show ((h1.bufs ++ [2 * NODE_COUNT]) ++ [NODE_COUNT]).sum + _ ≤ _
      rw [a3, a2, s1.bufs]
      show (h.bufs ++ [NODE_COUNT * 2]).sum + _ + _ + _ ≤ _
      rw [a1]
      omega
    · rw [s3.caps]
      show h2.caps = _
      rw [s2.caps]
      show h1.caps = _
      rw [s1.caps]
    · rw [s3.inflated]
      show h2.inflated = _
      rw [s2.inflated]
      show h1.inflated = _
      rw [s1.inflated]

theorem nodeData_short {fill : Bytes → M ρ Bytes} {rest : ρ → Bytes} {step : ρ → Nat → ρ} (hf : Fills fill rest step)
    (o : Outside) (r : ρ) (h : Heap) (hl : (rest r).length < 16384) :
    ∃ r' h', rdNodeData o fill r h = (badData, r', h') ∧ MapEditr.rdNodeData (rest r) = badData ∧ Nodes24 h h' := by
  have hN : NODE_COUNT = 4096 := rfl
  have a1 := (vecs_sum h.bufs).1
  unfold rdNodeData
  rw [bind_ok (m := vecWithLen o _) rfl]
  have v1 := vec_length o h.bufs.length (NODE_COUNT * 2)
  by_cases c1 : (rest r).length < NODE_COUNT * 2
  · obtain ⟨r1, h1, e1, s1⟩ := hf.short r { h with bufs := h.bufs ++ [NODE_COUNT * 2] } _ (Nat.lt_of_lt_of_eq c1 v1.symm)
    refine ⟨r1, h1, bind_error e1, ?_, ?_, s1.caps, s1.inflated⟩
    · unfold MapEditr.rdNodeData rdN
      rw [if_pos c1]
      rfl
    · rw [s1.bufs]
      show (h.bufs ++ [NODE_COUNT * 2]).sum ≤ _
      omega
  obtain ⟨h1, e1, s1⟩ := hf.ok r { h with bufs := h.bufs ++ [NODE_COUNT * 2] } _ (Nat.le_trans (Nat.le_of_eq v1) (by omega))
  rw [v1] at e1
  rw [bind_ok e1, bind_ok (m := vecWithLen16 o _) rfl]
  have hlen : ((rest r).take (NODE_COUNT * 2)).length = NODE_COUNT * 2 := by
    rw [List.length_take]
    omega
  rw [bind_ok (m := lift _) (a := u16sOf ((rest r).take (NODE_COUNT * 2))) (by
    unfold lift readU16Into
    have hv : ∀ f : Nat → Nat, ((List.range NODE_COUNT).map f).length = NODE_COUNT := fun f => by
      rw [List.length_map, List.length_range]
    rw [if_pos (by rw [hv, hlen]; omega), u16s_go _ _ (by rw [hv, hlen]; omega)])]
  rw [bind_ok (m := vecWithLen o _) rfl]
  have hr1 := hf.step r (NODE_COUNT * 2)
  have v2 := vec_length o (h1.bufs ++ [2 * NODE_COUNT]).length NODE_COUNT
  have a2 := (vecs_sum h1.bufs).2.1
  have a3 := (vecs_sum (h1.bufs ++ [2 * NODE_COUNT])).2.2
  have b1 : h1.bufs.sum = h.bufs.sum + 8192 := by
    rw [s1.bufs]
    exact a1
  by_cases c2 : (rest (step r (NODE_COUNT * 2))).length < NODE_COUNT
  · obtain ⟨r2, h2, e2, s2⟩ := hf.short (step r (NODE_COUNT * 2))
      { h1 with bufs := (h1.bufs ++ [2 * NODE_COUNT]) ++ [NODE_COUNT] } _ (Nat.lt_of_lt_of_eq c2 v2.symm)
    refine ⟨r2, h2, bind_error e2, ?_, ?_, s2.caps.trans s1.caps, s2.inflated.trans s1.inflated⟩
    · rw [hr1] at c2
      unfold MapEditr.rdNodeData rdN
      rw [if_neg c1]
      show (if ((rest r).drop (NODE_COUNT * 2)).length < NODE_COUNT then badData else _) >>= _ = _
      rw [if_pos c2]
      rfl
    · rw [s2.bufs]
      show ((h1.bufs ++ [2 * NODE_COUNT]) ++ [NODE_COUNT]).sum ≤ _
      omega
  obtain ⟨h2, e2, s2⟩ := hf.ok (step r (NODE_COUNT * 2)) { h1 with bufs := (h1.bufs ++ [2 * NODE_COUNT]) ++ [NODE_COUNT] } _
    (Nat.le_trans (Nat.le_of_eq v2) (by omega))
  rw [v2] at e2
  rw [bind_ok e2, bind_ok (m := vecWithLen o _) rfl]
  have hr2 := hf.step (step r (NODE_COUNT * 2)) NODE_COUNT
  have v3 := vec_length o h2.bufs.length NODE_COUNT
  have a4 := (vecs_sum h2.bufs).2.2
  have b2 : h2.bufs.sum = h1.bufs.sum + 12288 := by
    rw [s2.bufs]
    show ((h1.bufs ++ [2 * NODE_COUNT]) ++ [NODE_COUNT]).sum = _
    omega
  have c3 : (rest (step (step r (NODE_COUNT * 2)) NODE_COUNT)).length < NODE_COUNT := by
    rw [hr2, hr1, List.length_drop, List.length_drop]
    omega
  obtain ⟨r3, h3, e3, s3⟩ := hf.short (step (step r (NODE_COUNT * 2)) NODE_COUNT) { h2 with bufs := h2.bufs ++ [NODE_COUNT] } _
    (Nat.lt_of_lt_of_eq c3 v3.symm)
  refine ⟨r3, h3, bind_error e3, ?_, ?_, s3.caps.trans (s2.caps.trans s1.caps), s3.inflated.trans (s2.inflated.trans s1.inflated)⟩
  · rw [hr1] at c2
    rw [hr2, hr1] at c3
    unfold MapEditr.rdNodeData rdN
    rw [if_neg c1]
    show (if ((rest r).drop (NODE_COUNT * 2)).length < NODE_COUNT then badData else _) >>= _ = _
    rw [if_neg c2]
    show (if (((rest r).drop (NODE_COUNT * 2)).drop NODE_COUNT).length < NODE_COUNT then badData else _) >>= _ = _
    rw [if_pos c3]
    rfl
  · rw [s3.bufs]
    show (h2.bufs ++ [NODE_COUNT]).sum ≤ _
    omega

theorem does_nodeData (o : Outside) : Does 24576 0 (rdNodeData o readExact) MapEditr.rdNodeData := by
  intro c h h1 h2
  have hr := rest_length c
  by_cases hl : c.rest.length < 16384
  · obtain ⟨r', h', e, e', s1, s2, s3⟩ := nodeData_short fills_cursor o c h hl
    rw [e', e]
    refine ⟨fun _ _ e => (by cases e), fun _ e => ?_⟩
    cases e
    refine ⟨rfl, Nat.le_of_eq s3.symm, ?_, ?_⟩
    · show h'.bufs.sum + _ + _ ≤ _ + _ + _ + h'.inflated
      omega
    · show h'.caps.sum + _ + _ ≤ _ + _ + _ + 16 * h'.inflated
      rw [s2]
      omega
  · obtain ⟨nd, h', e, e', s1, s2, s3⟩ := nodeData_ok fills_cursor o c h (by omega)
    rw [e', e]
    refine ⟨fun _ _ e => ?_, fun _ e => (by cases e)⟩
    cases e
    refine ⟨c.pos + 16384, h', by rw [skip_three], by omega, by omega, ?_, Nat.le_of_eq s3.symm, ?_, ?_⟩
    · show List.drop _ (List.drop _ _) = _
      rw [List.drop_drop]
    · rw [List.length_drop]
      omega
    · rw [List.length_drop, s2]
      omega

theorem noMore_ok {o : Outside} {z : Zlib} (h : Heap) (hz : z.left = []) {t : Nat} (hf : z.fin = some t) :
    ∃ h', noMore o z h = (.ok (), z, h') ∧ Same h h' := by
  unfold noMore
  obtain ⟨h', e, s⟩ := readSome_end (o := o) (n := 1) hz hf h
  rw [bind_ok e, if_pos rfl]
  exact ⟨h', rfl, s⟩

theorem noMore_fail {o : Outside} {z : Zlib} (h : Heap) (hz : z.left ≠ [] ∨ z.fin = none) :
    ∃ z' h', noMore o z h = (badData, z', h') ∧ Same h h' := by
  unfold noMore
  by_cases hl : z.left = []
  · obtain ⟨h', e, s⟩ := readSome_fail (o := o) (n := 1) hl (hz.resolve_left fun n => n hl) h
    exact ⟨_, _, bind_error e, s⟩
  · obtain ⟨k, h', k1, k2, k3, e, s⟩ := readSome_some (o := o) (n := 1) (by omega) hl h
    rw [bind_ok e, if_neg (take_ne_nil k1 k3)]
    exact ⟨_, h', rfl, s⟩

theorem inflate_ok {o : Outside} {m : M Zlib α} {c : Cur} {h h' : Heap} {z : Zlib} {a : α} {n : Nat}
    (e : m (decoder o c.rest) h = (.ok a, z, h')) (hf : z.fin = some n) (hn : n ≤ c.rest.length) (h1 : c.pos ≤ c.data.length)
    (h2 : c.data.length < 2 ^ 63) : inflate o m c h = (.ok a, ⟨c.data, c.pos + n⟩, h') := by
  have hr := rest_length c
  unfold inflate
  rw [e]
  simp only [hf, Option.getD_some]
  have : Checked.u64 o.build (c.pos + n) = .ok (c.pos + n) := by
    unfold Checked.u64
    rw [if_pos (by omega)]
  rw [this]

theorem inflate_error {o : Outside} {m : M Zlib α} {c : Cur} {h h' : Heap} {z : Zlib} {x : Stop}
    (e : m (decoder o c.rest) h = (.error x, z, h')) : inflate o m c h = (.error x, c, h') := by
  unfold inflate
  rw [e]

theorem does_decompressNodeData {o : Outside} (hc : o.codec.Sized) :
    Does 24576 0 (decompressNodeData o) (MapEditr.decompressNodeData o.codec) := by
  intro c h h1 h2
  have hr := rest_length c
  unfold decompressNodeData MapEditr.decompressNodeData
  have bad : ∀ {m : M Zlib NodeData} {z : Zlib} {h' : Heap}, m (decoder o c.rest) h = (badData, z, h') → Nodes24 h h' →
      (inflate o m c h).1 = badData ∧ Asks 24576 0 c.rest.length 0 h (inflate o m c h).2.2 := by
    intro m z h' e ⟨s1, s2, s3⟩
    rw [inflate_error e]
    refine ⟨rfl, Nat.le_of_eq s3.symm, ?_, ?_⟩
    · show h'.bufs.sum + _ + _ ≤ _ + _ + _ + h'.inflated
      omega
    · show h'.caps.sum + _ + _ ≤ _ + _ + _ + 16 * h'.inflated
      rw [s2]
      omega
  have fails : ∀ {m : M Zlib NodeData} {p : Res (NodeData × Bytes)}, p = badData →
      (inflate o m c h).1 = badData ∧ Asks 24576 0 c.rest.length 0 h (inflate o m c h).2.2 →
      (∀ a r, p = .ok (a, r) → ∃ pos h', inflate o m c h = (.ok a, ⟨c.data, pos⟩, h') ∧ c.pos ≤ pos ∧ pos ≤ c.data.length ∧
        r = c.data.drop pos ∧ Asks 24576 0 c.rest.length r.length h h') ∧
      ∀ e, p = .error e → (inflate o m c h).1 = .error e ∧ Asks 24576 0 c.rest.length 0 h (inflate o m c h).2.2 := by
    intro m p hp hb
    subst hp
    refine ⟨fun _ _ e => (by cases e), fun _ e => ?_⟩
    cases e
    exact hb
  by_cases hl : (decoder o c.rest).left.length < 16384
  · obtain ⟨z, h', e, e', s⟩ := nodeData_short (fills_zlib o) o (decoder o c.rest) h hl
    refine fails ?_ (bad (bind_error e) s)
    cases hz : o.codec.zlibDec c.rest with
    | none => rfl
    | some dn =>
      obtain ⟨d, n⟩ := dn
      unfold decoder at e'
      rw [hz] at e'
      simp only at e' ⊢
      rw [e']
      rfl
  · obtain ⟨nd, h', e, e', s⟩ := nodeData_ok (fills_zlib o) o (decoder o c.rest) h (by omega)
    have hleft : ((((decoder o c.rest).left.drop 8192).drop 4096).drop 4096) = (decoder o c.rest).left.drop 16384 := by
      rw [List.drop_drop, List.drop_drop]
    by_cases hm : (decoder o c.rest).left.drop 16384 = [] ∧ (decoder o c.rest).fin ≠ none
    · cases hz : o.codec.zlibDec c.rest with
      | none =>
        refine absurd ?_ hm.2
        unfold decoder
        rw [hz]
      | some dn =>
        obtain ⟨d, n⟩ := dn
        have hd : decoder o c.rest = ⟨d, some n⟩ := by
          unfold decoder
          rw [hz]
        have hn := hc.consumed _ _ _ hz
        rw [hd] at hm hleft e' e
        simp only at hm hleft e' e
        obtain ⟨h'', e2, s2⟩ := noMore_ok (o := o) (z := ⟨((d.drop 8192).drop 4096).drop 4096, some n⟩) h' (hleft.trans hm.1) rfl
        have e3 : ((do
          let nd ← rdNodeData o (readExactZ o)
          noMore o
          return nd : M Zlib NodeData)) (decoder o c.rest) h = (.ok nd, ⟨((d.drop 8192).drop 4096).drop 4096, some n⟩, h'') := by
          rw [hd, bind_ok e, bind_ok e2]
          rfl
        rw [inflate_ok e3 rfl hn h1 h2]
        simp only [e']
        rw [hm.1]
        refine ⟨fun _ _ e => ?_, fun _ e => (by cases e)⟩
        cases e
        obtain ⟨s3, s4, s5⟩ := s
        refine ⟨_, _, rfl, by omega, by omega, ?_, ?_, ?_, ?_⟩
        · show List.drop _ (List.drop _ _) = _
          rw [List.drop_drop]
        · rw [s2.inflated]
          omega
        · rw [s2.inflated, s2.bufs, List.length_drop]
          omega
        · rw [s2.inflated, s2.caps, List.length_drop, s4]
          omega
    · obtain ⟨z', h'', e2, s2⟩ := noMore_fail (o := o)
        (z := ⟨(((decoder o c.rest).left.drop 8192).drop 4096).drop 4096, (decoder o c.rest).fin⟩) h' (by
          simp only
          rw [hleft]
          by_cases ha : (decoder o c.rest).left.drop 16384 = []
          · by_cases hb : (decoder o c.rest).fin = none
            · exact .inr hb
            · exact absurd ⟨ha, hb⟩ hm
          · exact .inl ha)
      obtain ⟨s3, s4, s5⟩ := s
      have e3 : ((do
        let nd ← rdNodeData o (readExactZ o)
        noMore o
        return nd : M Zlib NodeData)) (decoder o c.rest) h = (badData, z', h'') := by
        rw [bind_ok e]
        exact bind_error e2
      refine fails ?_ (bad e3 ⟨by rw [s2.bufs]; exact s3, s2.caps.trans s4, s2.inflated.trans s5⟩)
      cases hz : o.codec.zlibDec c.rest with
      | none => rfl
      | some dn =>
        obtain ⟨d, n⟩ := dn
        have hd : decoder o c.rest = ⟨d, some n⟩ := by
          unfold decoder
          rw [hz]
        rw [hd] at hm e'
        simp only at hm e' ⊢
        rw [e']
        have : d.drop 16384 ≠ [] := fun hx => hm ⟨hx, by simp⟩
        show (if (d.drop 16384).isEmpty = true then _ else _) = _
        rw [if_neg (by rw [List.isEmpty_iff]; exact this)]

/-! ## Metadata -/

theorem does_var (o : Outside) (version : Nat) (vars : Vars) : Does 0 0 (rdVar o version vars) (MapEditr.rdVar version vars) := by
  refine does_free (does_str16 o) fun name => does_free (does_str32 o) fun val => ?_
  refine does_free (p := rdPriv version) ?_ fun priv => does_pure _
  unfold rdPriv either
  simp only [decide_eq_true_eq]
  split
  · exact does_free does_u8 fun p => does_pure _
  · exact does_pure _

theorem u32_heap (c : Cur) (h : Heap) : (rdU32 c h).2.2 = h := by
  unfold rdU32
  by_cases hl : c.rest.length < 4
  · rw [bind_error (readExact_short (buf := [0, 0, 0, 0]) h hl)]
  · rw [bind_ok (readExact_ok (buf := [0, 0, 0, 0]) h (by simp only [List.length_cons, List.length_nil]; omega))]
    rfl

theorem u32_four {s r : Bytes} {n : Nat} (h : MapEditr.rdU32 s = .ok (n, r)) : s.length = r.length + 4 := by
  match s with
  | [] => cases h
  | [_] => cases h
  | [_, _] => cases h
  | [_, _, _] => cases h
  | _ :: _ :: _ :: _ :: t =>
    cases h
    rfl

/-- The four bytes of a count pay for 64 entries. -/
theorem does_u32_cap {k q : Nat} {f : Nat → M Cur β} {g : Nat × Bytes → Res (β × Bytes)}
    (hf : ∀ a, Does k q (f a) fun s => g (a, s)) :
    Does k q (rdU32 >>= fun v => withCapacity (min v 64) >>= fun _ => f v) fun s => MapEditr.rdU32 s >>= g := by
  intro c h h1 h2
  obtain ⟨ho, he⟩ := does_u32 c h h1 h2
  simp only
  cases hp : MapEditr.rdU32 c.rest with
  | error e =>
    obtain ⟨h4, h5⟩ := he e hp
    refine ⟨fun a r e => (by cases e), fun e' e'' => ?_⟩
    cases e''
    have h6 : rdU32 c h = (.error e, (rdU32 c h).2.1, (rdU32 c h).2.2) := by rw [← h4]
    rw [bind_error h6]
    exact ⟨rfl, h5.mono (by omega) (by omega) (Nat.le_refl _)⟩
  | ok ar =>
    obtain ⟨a, r⟩ := ar
    obtain ⟨pos, h', h4, h5, h6, h7, -⟩ := ho a r hp
    have h8 : h' = h := by
      have := u32_heap c h
      rw [h4] at this
      exact this
    subst h8
    have h9 := u32_four hp
    rw [bind_ok h4, bind_ok (m := withCapacity _) rfl]
    obtain ⟨ho', he'⟩ := hf a ⟨c.data, pos⟩ { h' with caps := h'.caps ++ [min a 64] } h6 h2
    have hx : (⟨c.data, pos⟩ : Cur).rest = r := h7.symm
    rw [hx] at ho' he'
    have hA : ∀ {n' : Nat} {h'' : Heap}, Asks k q r.length n' { h' with caps := h'.caps ++ [min a 64] } h'' →
        Asks k q c.rest.length n' h' h'' := by
      intro n' h'' ⟨a1, a2, a3⟩
      simp only [List.sum_append, List.sum_cons, List.sum_nil] at a1 a2 a3
      exact ⟨a1, by omega, by omega⟩
    refine ⟨fun b r' e => ?_, fun e e' => ?_⟩
    · obtain ⟨pos', h'', h9, h10, h11, h12, h13⟩ := ho' b r' e
      exact ⟨pos', h'', h9, Nat.le_trans h5 h10, h11, h12, hA h13⟩
    · obtain ⟨h8, h9⟩ := he' e e'
      exact ⟨h8, hA h9⟩

theorem searchIn_lt {pat : Bytes} : ∀ {s : Bytes} {e : Nat}, searchIn pat s = some e → e + pat.length ≤ s.length
  | [], e, h => by
    unfold searchIn at h
    split at h
    · rename_i hp
      cases h
      rw [List.isEmpty_iff.1 hp]
      simp
    · cases h
  | b :: t, e, h => by
    unfold searchIn at h
    split at h
    · rename_i hp
      cases h
      have := (List.isPrefixOf_iff_prefix.1 hp).length_le
      omega
    · rw [Option.map_eq_some_iff] at h
      obtain ⟨e', h', rfl⟩ := h
      have := searchIn_lt h'
      rw [List.length_cons]
      omega

theorem does_meta (o : Outside) (version : Nat) : Does 0 0 (rdMeta o version) (MapEditr.rdMeta version) := by
  refine does_u32_cap fun varCount => does_free (does_loop (fun v => does_var o version v) _ _) fun vars => ?_
  intro c h h1 h2
  have hr := rest_length c
  simp only
  rw [bind_ok (m := restOf) (a := c.rest) (r' := c) (h' := h) (by
    unfold restOf
    rw [bind_ok (m := reader) rfl, if_pos h1]
    rfl)]
  cases he : searchIn END_STR c.rest with
  | none => exact does_fail (α := NodeMeta) .badData c h h1 h2
  | some e =>
    simp only
    have hlt := searchIn_lt he
    have hu : Checked.u64 o.build (e + END_STR.length) = .ok (e + END_STR.length) := by
      unfold Checked.u64
      rw [if_pos (by omega)]
    rw [bind_ok (m := lift _) (a := e + END_STR.length) (r' := c) (h' := h) (by unfold lift; rw [hu])]
    have hv := vec_length o h.bufs.length (e + END_STR.length)
    unfold rdN
    rw [if_neg (by omega), bind_ok (m := vecWithLen o _) rfl, bind_ok (readExact_ok _ (by rw [hv]; omega)), hv]
    refine ⟨fun _ _ e => ?_, fun _ e => (by cases e)⟩
    cases e
    refine ⟨_, _, rfl, Nat.le_add_right _ _, by show c.pos + _ ≤ _; omega, ?_, Nat.le_refl _, ?_, ?_⟩
    · show List.drop _ (List.drop _ _) = _
      rw [List.drop_drop]
    · simp only [List.sum_append, List.sum_cons, List.sum_nil, List.length_drop]
      omega
    · simp only [List.length_drop]
      omega

theorem does_metaList (o : Outside) : Does 0 0 (rdMetaList o) MapEditr.rdMetaList := by
  refine does_free does_u8 fun version => ?_
  simp only
  split
  · exact does_fail _
  · refine does_free (p := rdMetaCount version) (g := fun x => loopP (rdMetaEntry version) x.1 [] x.2) ?_ fun count => does_loop (fun l => ?_) _ _
    · unfold rdMetaCount either
      simp only [decide_eq_true_eq]
      split
      · exact does_pure _
      · exact does_u16
    · exact does_free does_u16 fun pos => does_free (does_meta o version) fun m => does_pure _

theorem onSlice_ok {buf : Bytes} {m : M Cur α} {a : α} {c : Cur} {h h' : Heap} {r : ρ} (e : m ⟨buf, 0⟩ h = (.ok a, c, h')) :
    onSlice buf m r h = (.ok a, r, h') := by
  unfold onSlice
  rw [e]

theorem onSlice_error {buf : Bytes} {m : M Cur α} {x : Stop} {h : Heap} {r : ρ} (e : (m ⟨buf, 0⟩ h).1 = .error x) :
    onSlice buf m r h = (.error x, r, (m ⟨buf, 0⟩ h).2.2) := by
  unfold onSlice
  rw [← e]

theorem does_decompressMetaList {o : Outside} (hc : o.codec.Sized) :
    Does 0 0 (decompressMetaList o) (MapEditr.decompressMetaList o.codec) := by
  intro c h h1 h2
  have hr := rest_length c
  unfold decompressMetaList MapEditr.decompressMetaList
  cases hz : o.codec.zlibDec c.rest with
  | none =>
    have hd : (decoder o c.rest).fin = none := by
      unfold decoder
      rw [hz]
    obtain ⟨z', h', e, s⟩ := readToEndLoop_fail o _ (decoder o c.rest) h (Nat.lt_succ_self _) hd
    have e2 : readToEnd o (decoder o c.rest) h = (badData, z', h') := by
      unfold readToEnd
      exact bind_error e
    rw [inflate_error (bind_error e2)]
    refine ⟨fun _ _ e => (by cases e), fun _ e => ?_⟩
    cases e
    refine ⟨rfl, Nat.le_of_eq s.inflated.symm, ?_, ?_⟩
    · show h'.bufs.sum + _ + _ ≤ _ + _ + _ + h'.inflated
      rw [s.bufs, s.inflated]
      omega
    · show h'.caps.sum + _ + _ ≤ _ + _ + _ + 16 * h'.inflated
      rw [s.caps, s.inflated]
      omega
  | some dn =>
    obtain ⟨d, n⟩ := dn
    have hd : decoder o c.rest = ⟨d, some n⟩ := by
      unfold decoder
      rw [hz]
    have hn := hc.consumed _ _ _ hz
    have hlen := hc.zlib _ _ _ (by rw [rest_length]; omega) hz
    obtain ⟨h', e, s⟩ := readToEndLoop_ok o (d.length + 1) ⟨d, some n⟩ h n (Nat.lt_succ_self _) rfl
    have e2 : readToEnd o (decoder o c.rest) h = (.ok d, ⟨[], some n⟩, { h' with inflated := h'.inflated + d.length }) := by
      unfold readToEnd
      rw [hd]
      show (readToEndLoop o (d.length + 1) >>= inflated) _ h = _
      rw [bind_ok e]
      rfl
    obtain ⟨ho, he⟩ := does_metaList o ⟨d, 0⟩ { h' with inflated := h'.inflated + d.length } (Nat.zero_le _) hlen
    have hrest : (⟨d, 0⟩ : Cur).rest = d := rfl
    rw [hrest] at ho he
    simp only
    cases hp : MapEditr.rdMetaList d with
    | error x =>
      obtain ⟨h3, a1, a2, a3⟩ := he x hp
      rw [inflate_error (by rw [bind_ok e2]; exact bind_error (onSlice_error h3))]
      refine ⟨fun _ _ e => (by cases e), fun _ e => ?_⟩
      cases e
      simp only [s.bufs, s.caps, s.inflated] at a1 a2 a3 ⊢
      exact ⟨trivial, by omega, by omega, by omega⟩
    | ok lr =>
      obtain ⟨l, r⟩ := lr
      obtain ⟨pos, h3, e3, -, -, -, a1, a2, a3⟩ := ho l r hp
      obtain ⟨h4, e4, s4⟩ := noMore_ok (o := o) (z := ⟨[], some n⟩) h3 rfl rfl
      rw [inflate_ok (z := ⟨[], some n⟩) (a := l) (h' := h4) (by
        rw [bind_ok e2, bind_ok (onSlice_ok e3), bind_ok e4]
        rfl) rfl hn h1 h2]
      refine ⟨fun _ _ e => ?_, fun _ e => (by cases e)⟩
      cases e
      simp only [s.bufs, s.caps, s.inflated] at a1 a2 a3
      refine ⟨_, _, rfl, by omega, by omega, ?_, ?_, ?_, ?_⟩
      · show List.drop _ (List.drop _ _) = _
        rw [List.drop_drop]
      · rw [s4.inflated]
        omega
      · rw [s4.inflated, s4.bufs, List.length_drop]
        omega
      · rw [s4.inflated, s4.caps, List.length_drop]
        omega

/-! ## Objects, timers, names -/

/-- A capacity that is not paid for. -/
theorem does_cap {k n b : Nat} {f : Unit → M Cur β} {p : P β} (hn : n ≤ b) (hf : Does k 0 (f ()) p) :
    Does k b (withCapacity n >>= f) p := by
  intro c h h1 h2
  rw [bind_ok (m := withCapacity n) rfl]
  obtain ⟨ho, he⟩ := hf c { h with caps := h.caps ++ [n] } h1 h2
  have hA : ∀ {n1 n2 : Nat} {h' : Heap}, Asks k 0 n1 n2 { h with caps := h.caps ++ [n] } h' → Asks k b n1 n2 h h' := by
    intro n1 n2 h' ⟨a1, a2, a3⟩
    simp only [List.sum_append, List.sum_cons, List.sum_nil] at a1 a2 a3
    exact ⟨a1, a2, by omega⟩
  refine ⟨fun a r e => ?_, fun e e' => ⟨(he e e').1, hA (he e e').2⟩⟩
  obtain ⟨pos, h', h3, h4, h5, h6, h7⟩ := ho a r e
  exact ⟨pos, h', h3, h4, h5, h6, hA h7⟩

theorem does_object (o : Outside) : Does 0 0 (rdObject o) MapEditr.rdObject :=
  does_free does_u8 fun _ => does_free does_i32 fun _ => does_free does_i32 fun _ => does_free does_i32 fun _ =>
    does_free (does_str16 o) fun _ => does_pure _

theorem does_objects (o : Outside) : Does 0 64 (rdObjects o) MapEditr.rdObjects := by
  refine does_free does_u8 fun version => ?_
  simp only
  split
  · exact (does_fail _).mono (Nat.le_refl _) (by omega)
  · exact does_free (g := fun x => loopP (fun l s => do let (o, s) ← MapEditr.rdObject s; return (l ++ [o], s)) x.1 [] x.2)
      does_u16 fun count => does_cap (Nat.min_le_right _ _) <| (does_loop (fun l => does_free (does_object o) fun x => does_pure (l ++ [x])) _ _)

theorem does_timers : Does 0 4096 rdTimers MapEditr.rdTimers := by
  refine does_free does_u8 fun len => ?_
  simp only
  split
  · exact (does_fail _).mono (Nat.le_refl _) (by omega)
  · refine does_free (g := fun x => loopP (fun l s => do let (t, s) ← MapEditr.rdTimer s; return (l ++ [t], s)) x.1 [] x.2)
      does_u16 fun count => does_cap (Nat.min_le_right _ _) <| (does_loop (fun l => ?_) _ _)
    have h : (fun s => (do let (t, s) ← MapEditr.rdTimer s; return (l ++ [t], s) : Res (List NodeTimer × Bytes))) =
        fun s => (do
          let (pos, s) ← MapEditr.rdU16 s
          let (timeout, s) ← MapEditr.rdU32 s
          let (elapsed, s) ← MapEditr.rdU32 s
          return (l ++ [⟨pos, timeout, elapsed⟩], s)) := by
      funext s
      unfold MapEditr.rdTimer
      cases MapEditr.rdU16 s with
      | error e => rfl
      | ok x =>
        simp only [bind, Except.bind]
        cases MapEditr.rdU32 x.2 with
        | error e => rfl
        | ok y =>
          simp only
          cases MapEditr.rdU32 y.2 with
          | error e => rfl
          | ok z => rfl
    rw [h]
    exact does_free does_u16 fun _ => does_free does_u32 fun _ => does_free does_u32 fun _ => does_pure _

theorem does_nimap (o : Outside) : Does 0 0 (rdNimap o) MapEditr.rdNimap := by
  refine does_free does_u8 fun version => ?_
  simp only
  split
  · exact does_fail _
  · exact does_free (g := fun x => loopP rdNimapEntry x.1 [] x.2) does_u16 fun count =>
      does_loop (fun l => does_free does_u16 fun id => does_free (does_str16 o) fun name => does_pure (SMap.insert l id name)) _ _

/-! ## Mapblocks -/

theorem either_true {c : Bool} (h : c = true) (m m' : M ρ α) : either c m m' = m := by
  unfold either
  rw [if_pos h]

theorem either_false {c : Bool} (h : c = false) (m m' : M ρ α) : either c m m' = m' := by
  unfold either
  rw [if_neg (by rw [h]; decide)]

theorem bind_pure_left (a : α) (f : α → M ρ β) : (pure a >>= f) = f a := rfl

theorem bind_assoc (m : M ρ α) (f : α → M ρ β) (g : β → M ρ γ) : ((m >>= f) >>= g) = (m >>= fun a => f a >>= g) := by
  funext r h
  show (match (match m r h with
    | (.ok a, r, h) => f a r h
    | (.error e, r, h) => (.error e, r, h)) with
    | (.ok a, r, h) => g a r h
    | (.error e, r, h) => (.error e, r, h)) = (match m r h with
    | (.ok a, r, h) => (f a >>= g) r h
    | (.error e, r, h) => (.error e, r, h))
  rcases m r h with ⟨x | a, r1, h1⟩ <;> rfl

/-- `MapBlock::deserialize` after the version and `decode_all`. -/
def rdBody (o : Outside) (version : Nat) : M Cur MapBlock := do
  let flags ← rdU8
  let lighting ← either (version ≥ 27) rdU16 (pure 0xFFFF)
  let timestamp ← either (version ≥ 29) rdU32 (pure 0)
  let nimap ← either (version ≥ 29) (rdNimap o >>= fun m => pure (some m)) (pure none)
  let contentWidth ← rdU8
  let paramsWidth ← rdU8
  if contentWidth ≠ 2 ∨ paramsWidth ≠ 2 then fail .invalidFeature
  else do
    let nd ← either (version ≥ 29) (rdNodeData o readExact) (decompressNodeData o)
    let metas ← either (version ≥ 29) (rdMetaList o) (decompressMetaList o)
    let objects ← rdObjects o
    let timestamp ← either (version < 29) rdU32 (pure timestamp)
    let nimap ← either (version < 29) (rdNimap o >>= fun m => pure (some m)) (pure nimap)
    let timers ← rdTimers
    let nimap ← lift (unwrap "nimap" nimap)
    return { version, flags, lighting, contentWidth, paramsWidth, nd, metas, objects, timestamp, nimap, timers }

theorem bind_lift_some (w : String) (a : α) (f : α → M ρ β) : (lift (unwrap w (some a)) >>= f) = f a := rfl

/-- `rdBody28` with the bytes left at the end. -/
def body28 (c : Codec) (version : Nat) : P MapBlock := fun s => do
  let (flags, s) ← MapEditr.rdU8 s
  let (lighting, s) ← rdLight version s
  let (cw, s) ← MapEditr.rdU8 s
  let (pw, s) ← MapEditr.rdU8 s
  if cw ≠ 2 ∨ pw ≠ 2 then .error (.err .invalidFeature)
  else do
    let (nd, s) ← MapEditr.decompressNodeData c s
    let (metas, s) ← MapEditr.decompressMetaList c s
    let (objects, s) ← MapEditr.rdObjects s
    let (timestamp, s) ← MapEditr.rdU32 s
    let (nimap, s) ← MapEditr.rdNimap s
    let (timers, s) ← MapEditr.rdTimers s
    return (⟨version, flags, lighting, cw, pw, nd, metas, objects, timestamp, nimap, timers⟩, s)

/-- `rdBody29` with the bytes left at the end. -/
def body29 (version : Nat) : P MapBlock := fun s => do
  let (flags, s) ← MapEditr.rdU8 s
  let (lighting, s) ← MapEditr.rdU16 s
  let (timestamp, s) ← MapEditr.rdU32 s
  let (nimap, s) ← MapEditr.rdNimap s
  let (cw, s) ← MapEditr.rdU8 s
  let (pw, s) ← MapEditr.rdU8 s
  if cw ≠ 2 ∨ pw ≠ 2 then .error (.err .invalidFeature)
  else do
    let (nd, s) ← MapEditr.rdNodeData s
    let (metas, s) ← MapEditr.rdMetaList s
    let (objects, s) ← MapEditr.rdObjects s
    let (timers, s) ← MapEditr.rdTimers s
    return (⟨version, flags, lighting, cw, pw, nd, metas, objects, timestamp, nimap, timers⟩, s)

/-- Only the result. -/
theorem map_bind (x : Res α) (f : α → Res β) (g : β → γ) : Except.map g (x >>= f) = x >>= fun a => Except.map g (f a) := by
  cases x <;> rfl

theorem body28_eq (c : Codec) (version : Nat) (s : Bytes) : rdBody28 c version s = (body28 c version s).map Prod.fst := by
  unfold rdBody28 body28
  rw [map_bind]
  congr 1; funext ⟨flags, s⟩; simp only; rw [map_bind]
  congr 1; funext ⟨lighting, s⟩; simp only; rw [map_bind]
  congr 1; funext ⟨cw, s⟩; simp only; rw [map_bind]
  congr 1; funext ⟨pw, s⟩; simp only
  split
  · rfl
  · rw [map_bind]
    congr 1; funext ⟨nd, s⟩; simp only; rw [map_bind]
    congr 1; funext ⟨metas, s⟩; simp only; rw [map_bind]
    congr 1; funext ⟨objects, s⟩; simp only; rw [map_bind]
    congr 1; funext ⟨timestamp, s⟩; simp only; rw [map_bind]
    congr 1; funext ⟨nimap, s⟩; simp only; rw [map_bind]
    congr 1

theorem body29_eq (version : Nat) (s : Bytes) : rdBody29 version s = (body29 version s).map Prod.fst := by
  unfold rdBody29 body29
  rw [map_bind]
  congr 1; funext ⟨flags, s⟩; simp only; rw [map_bind]
  congr 1; funext ⟨lighting, s⟩; simp only; rw [map_bind]
  congr 1; funext ⟨timestamp, s⟩; simp only; rw [map_bind]
  congr 1; funext ⟨nimap, s⟩; simp only; rw [map_bind]
  congr 1; funext ⟨cw, s⟩; simp only; rw [map_bind]
  congr 1; funext ⟨pw, s⟩; simp only
  split
  · rfl
  · rw [map_bind]
    congr 1; funext ⟨nd, s⟩; simp only; rw [map_bind]
    congr 1; funext ⟨metas, s⟩; simp only; rw [map_bind]
    congr 1; funext ⟨objects, s⟩; simp only; rw [map_bind]
    congr 1

theorem does_body28 {o : Outside} (hc : o.codec.Sized) {version : Nat} (hv : version < 29) :
    Does 24576 4160 (rdBody o version) (body28 o.codec version) := by
  have e1 : decide (version ≥ 29) = false := decide_eq_false (by omega)
  have e2 : decide (version < 29) = true := decide_eq_true hv
  unfold rdBody
  try simp only
  refine does_free does_u8 fun flags => does_free (p := rdLight version) ?_ fun lighting => ?_
  · unfold rdLight either
    simp only [decide_eq_true_eq]
    split
    · exact does_u16
    · exact does_pure _
  · rw [either_false e1, bind_pure_left, either_false e1, bind_pure_left]
    try simp only
    refine does_free does_u8 fun cw => ?_
    simp only
    refine does_free does_u8 fun pw => ?_
    simp only
    split
    · exact (does_fail _).mono (by omega) (by omega)
    · rw [either_false e1]
      try simp only
      refine does_bind (k := 24576) (k' := 0) (q := 0) (q' := 4160) (does_decompressNodeData hc) fun nd => ?_
      rw [either_false e1]
      try simp only
      refine does_free (does_decompressMetaList hc) fun metas => ?_
      try simp only
      refine does_bind (k := 0) (k' := 0) (q := 64) (q' := 4096) (does_objects o) fun objects => ?_
      rw [either_true e2]
      try simp only
      refine does_free does_u32 fun timestamp => ?_
      rw [either_true e2, bind_assoc]
      try simp only
      refine does_free (does_nimap o) fun nimap => ?_
      rw [bind_pure_left]
      try simp only
      exact does_bind (k := 0) (k' := 0) (q := 4096) (q' := 0) does_timers fun timers => does_pure _

theorem does_body29 (o : Outside) {version : Nat} (hv : version = 29) :
    Does 24576 4160 (rdBody o version) (body29 version) := by
  have e1 : decide (version ≥ 29) = true := decide_eq_true (by omega)
  have e2 : decide (version < 29) = false := decide_eq_false (by omega)
  have e3 : decide (version ≥ 27) = true := decide_eq_true (by omega)
  unfold rdBody
  try simp only
  refine does_free does_u8 fun flags => ?_
  rw [either_true e3]
  try simp only
  refine does_free does_u16 fun lighting => ?_
  rw [either_true e1]
  try simp only
  refine does_free does_u32 fun timestamp => ?_
  rw [either_true e1, bind_assoc]
  try simp only
  refine does_free (does_nimap o) fun nimap => ?_
  rw [bind_pure_left]
  try simp only
  refine does_free does_u8 fun cw => ?_
  simp only
  refine does_free does_u8 fun pw => ?_
  simp only
  split
  · exact (does_fail _).mono (by omega) (by omega)
  · rw [either_true e1]
    try simp only
    refine does_bind (k := 24576) (k' := 0) (q := 0) (q' := 4160) (does_nodeData o) fun nd => ?_
    rw [either_true e1]
    try simp only
    refine does_free (does_metaList o) fun metas => ?_
    try simp only
    refine does_bind (k := 0) (k' := 0) (q := 64) (q' := 4096) (does_objects o) fun objects => ?_
    rw [either_false e2, bind_pure_left, either_false e2, bind_pure_left]
    try simp only
    exact does_bind (k := 0) (k' := 0) (q := 4096) (q' := 0) does_timers fun timers => does_pure _

/-- Result and cost, without the cursor. -/
theorem Does.result {k q : Nat} {m : M Cur α} {p : P α} (hd : Does k q m p) {c : Cur} {h : Heap} (h1 : c.pos ≤ c.data.length)
    (h2 : c.data.length < 2 ^ 63) : (m c h).1 = (p c.rest).map Prod.fst ∧ Asks k q c.rest.length 0 h (m c h).2.2 := by
  obtain ⟨ho, he⟩ := hd c h h1 h2
  cases hp : p c.rest with
  | error e => exact he e hp
  | ok ar =>
    obtain ⟨pos, h', e, -, -, -, h3⟩ := ho ar.1 ar.2 hp
    rw [e]
    exact ⟨rfl, h3.mono (Nat.le_refl _) (Nat.le_refl _) (Nat.zero_le _)⟩

theorem deserialize_same {o : Outside} (hc : o.codec.Sized) {src : Bytes} (hs : src.length < 2 ^ 63) :
    (deserialize o src).1 = MapEditr.deserialize o.codec src ∧ Asks 24576 4160 src.length 0 {} (deserialize o src).2 := by
  have hz : Asks 24576 4160 src.length 0 {} {} := ⟨Nat.le_refl _, by simp, by simp⟩
  have e0 : deserialize o src = ((rdBlock o ⟨src, 0⟩ {}).1, (rdBlock o ⟨src, 0⟩ {}).2.2) := rfl
  rw [e0]
  unfold MapEditr.deserialize
  match src, hs with
  | [], hs => exact ⟨rfl, hz⟩
  | v :: t, hs =>
    have e1 : rdU8 ⟨v :: t, 0⟩ {} = (.ok v.toNat, ⟨v :: t, 1⟩, {}) := by
      unfold rdU8
      rw [bind_ok (readExact_ok (buf := [0]) {} (by show 1 ≤ t.length + 1; omega))]
      rfl
    have e2 : MapEditr.rdU8 (v :: t) = .ok (v.toNat, t) := rfl
    have hrest : (⟨v :: t, 1⟩ : Cur).rest = t := rfl
    unfold rdBlock
    rw [bind_ok e1, e2]
    show (_ = (if v.toNat < 25 ∨ v.toNat > 29 then _ else _)) ∧ _
    by_cases hv : v.toNat < 25 ∨ v.toNat > 29
    · rw [if_pos hv, if_pos hv]
      exact ⟨rfl, hz⟩
    · rw [if_neg hv, if_neg hv]
      have hb : ∀ (m : M Cur Unit), (m >>= fun _ => rdBody o v.toNat) = (do
        m
        let flags ← rdU8
        let lighting ← either (v.toNat ≥ 27) rdU16 (pure 0xFFFF)
        let timestamp ← either (v.toNat ≥ 29) rdU32 (pure 0)
        let nimap ← either (v.toNat ≥ 29) (rdNimap o >>= fun m => pure (some m)) (pure none)
        let contentWidth ← rdU8
        let paramsWidth ← rdU8
        if contentWidth ≠ 2 ∨ paramsWidth ≠ 2 then fail .invalidFeature
        else do
          let nd ← either (v.toNat ≥ 29) (rdNodeData o readExact) (decompressNodeData o)
          let metas ← either (v.toNat ≥ 29) (rdMetaList o) (decompressMetaList o)
          let objects ← rdObjects o
          let timestamp ← either (v.toNat < 29) rdU32 (pure timestamp)
          let nimap ← either (v.toNat < 29) (rdNimap o >>= fun m => pure (some m)) (pure nimap)
          let timers ← rdTimers
          let nimap ← lift (unwrap "nimap" nimap)
          return { version := v.toNat, flags, lighting, contentWidth, paramsWidth, nd, metas, objects, timestamp, nimap, timers }) :=
        fun _ => rfl
      rw [← hb]
      by_cases h29 : v.toNat ≥ 29
      · rw [if_pos h29]
        cases hd : o.codec.zstdDec t with
        | none =>
          rw [bind_error (m := unpack o v.toNat) (x := .err .badData) (r' := ⟨v :: t, 1⟩) (h' := {}) (by
            unfold unpack
            rw [if_pos h29, hrest, hd]
            rfl)]
          exact ⟨rfl, hz⟩
        | some d =>
          rw [bind_ok (m := unpack o v.toNat) (a := ()) (r' := ⟨d, 0⟩) (h' := { inflated := d.length }) (by
            unfold unpack
            rw [if_pos h29, hrest, hd]
            simp only [Nat.zero_add])]
          obtain ⟨h3, a1, a2, a3⟩ := (does_body29 o (version := v.toNat) (by omega)).result (c := ⟨d, 0⟩) (h := { inflated := d.length })
            (Nat.zero_le _) (hc.zstd _ _ (by simp only [List.length_cons] at hs; omega) hd)
          have hr : (⟨d, 0⟩ : Cur).rest = d := rfl
          rw [hr] at h3 a2 a3
          refine ⟨h3.trans (body29_eq _ _).symm, Nat.zero_le _, ?_, ?_⟩
          · simp only [List.sum_nil] at a2 ⊢
            omega
          · simp only [List.sum_nil] at a3 ⊢
            omega
      · rw [if_neg h29]
        rw [bind_ok (m := unpack o v.toNat) (a := ()) (r' := ⟨v :: t, 1⟩) (h' := {}) (by
          unfold unpack
          rw [if_neg h29])]
        obtain ⟨h3, a1, a2, a3⟩ := (does_body28 hc (version := v.toNat) (by omega)).result (c := ⟨v :: t, 1⟩) (h := {})
          (by show 1 ≤ t.length + 1; omega) hs
        rw [hrest] at h3 a2 a3
        refine ⟨h3.trans (body28_eq _ _ _).symm, Nat.zero_le _, ?_, ?_⟩
        · simp only [List.length_cons] at a2 ⊢
          omega
        · simp only [List.length_cons] at a3 ⊢
          omega

theorem luaEntity_same (o : Outside) (x : StaticObject) (hs : x.data.length < 2 ^ 63) (r : ρ) (h : Heap) :
    (luaEntity o x r h).1 = LuaEntity.deserialize x := by
  unfold luaEntity LuaEntity.deserialize
  by_cases ht : x.objType ≠ 7
  · rw [if_pos ht, if_pos ht]
    rfl
  · rw [if_neg ht, if_neg ht]
    have hd : Does 0 0 (do
        let v ← rdU8
        if v ≠ 1 then fail .invalidSubVersion
        else do
          let name ← rdStr16 o
          let data ← rdStr32 o
          return ⟨name, data⟩ : M Cur LuaEntity) (fun s => do
        let (v, s) ← MapEditr.rdU8 s
        if v ≠ 1 then .error (.err .invalidSubVersion)
        else do
          let (name, s) ← MapEditr.rdStr16 s
          let (data, s) ← MapEditr.rdStr32 s
          return (⟨name, data⟩, s)) := by
      refine does_free does_u8 fun v => ?_
      simp only
      split
      · exact does_fail _
      · refine does_free (does_str16 o) fun name => ?_
        simp only
        exact does_free (does_str32 o) fun data => does_pure (LuaEntity.mk name data)
    have := (hd.result (c := ⟨x.data, 0⟩) (h := h) (Nat.zero_le _) hs).1
    show (_ : Res LuaEntity) = _
    refine Eq.trans (b := ((do
        let v ← rdU8
        if v ≠ 1 then fail .invalidSubVersion
        else do
          let name ← rdStr16 o
          let data ← rdStr32 o
          return ⟨name, data⟩ : M Cur LuaEntity) ⟨x.data, 0⟩ h).1) rfl (this.trans ?_)
    show Except.map Prod.fst (MapEditr.rdU8 x.data >>= _) = _
    rw [map_bind]
    congr 1; funext ⟨v, s⟩; simp only
    split
    · rfl
    · rw [map_bind]
      congr 1; funext ⟨name, s⟩; simp only; rw [map_bind]
      congr 1

theorem serializeNodes_same (o : Outside) (nd : NodeData) (r : ρ) (h : Heap) :
    (serializeNodes o nd r h).1 = nd.serialize.map flat := by
  unfold serializeNodes NodeData.serialize
  rw [bind_ok (m := vecWithLen o _) rfl]
  have hv := vec_length o h.bufs.length (NODE_COUNT * 2)
  by_cases hl : nd.nodes.length = NODE_COUNT
  · rw [bind_ok (m := lift _) (a := bytesOfU16s nd.nodes) (r' := r) (h' := { h with bufs := h.bufs ++ [NODE_COUNT * 2] }) (by
      unfold lift writeU16Into
      rw [if_pos (by rw [hv, hl, Nat.mul_comm]), bytes_go _ _ (by rw [hv, hl, Nat.mul_comm])])]
    have : rassert (nd.nodes.length == NODE_COUNT) "write_u16_into: lengths differ" = .ok () := by
      unfold rassert
      rw [if_pos (by rw [hl]; exact beq_self_eq_true _)]
    rw [this]
    show Except.ok (bytesOfU16s nd.nodes ++ nd.param1 ++ nd.param2) = Except.ok (bytesOfU16s nd.nodes ++ (nd.param1 ++ (nd.param2 ++ [])))
    rw [List.append_nil, List.append_assoc]
  · rw [bind_error (m := lift _) (x := .panic "write_u16_into: lengths differ") (r' := r)
      (h' := { h with bufs := h.bufs ++ [NODE_COUNT * 2] }) (by
      unfold lift writeU16Into
      rw [if_neg (by rw [hv]; omega)])]
    have : rassert (nd.nodes.length == NODE_COUNT) "write_u16_into: lengths differ" = .error (.panic "write_u16_into: lengths differ") := by
      unfold rassert
      rw [if_neg (by rw [beq_iff_eq]; exact hl)]
    rw [this]
    rfl

end MapEditr.Raw
