import Verif.Proof.Together
import Verif.Props.Locks
/-!
# C115: several runs at the same time

Any number of runs of the program work on the same map, or read it as their input map, at the same time.  What comes out
is what comes out if they work one after the other, in the order of their commits.  As in C114 SQLite does not undo
transactions by itself.
-/

namespace MapEditr
open Spec Locks

theorem part_append (r : Nat) (S S' : List Turn) : part r (S ++ S') = part r S ++ part r S' := by
  unfold part; rw [List.filter_append, List.map_append]

theorem part_phases {env : Nat → Env} {args : Nat → InstArgs} {S : List Turn} (hu : ∀ r n, (env r).undo n = false)
    (hS : OfRuns env args S) (r n : Nat) : (phases (args r).inputMapPath.isSome (part r (S.take n))).isSome = true := by
  obtain ⟨rest, h⟩ := hS.1 r
  have := phases_take (phases_run (hu r) (args r)) (part r (S.take n)).length
  have e : (computeThread (env r) (args r) World.start).2.trace.take (part r (S.take n)).length = part r (S.take n) := by
    have e : part r S = part r (S.take n) ++ part r (S.drop n) := by rw [← part_append, List.take_append_drop]
    rw [h, e, List.append_assoc]
    exact List.take_left' rfl
  rwa [e] at this

/-- What happened before a statement, how the run stood then, and what it did. -/
theorem turn_at {uses : Nat → DbId → Bool} {f : File} {env : Nat → Env} {args : Nat → InstArgs} {S : List Turn}
    (hu : ∀ r n, (env r).undo n = false) (hf : Idle f) (hS : OfRuns env args S) (ha : AllAllowed uses f S) {i : DbId}
    {t : Table} {n : Nat} {u : Turn} (hi : uses u.run i = true) (hl : MeetsAt uses f S u.run i t) (hn : S[n]? = some u)
    (hb : u.did.db = i) (hb' : u.did.stmt ≠ .rollback) :
    ∃ P Q v, phaseStep (args u.run).inputMapPath.isSome P u.did = some Q ∧ v.cur = seesAlone i t (part u.run (S.take n)) ∧
      Stands (P i) (together uses f (S.take n)) (whose u.run i) t v ∧ S.take (n + 1) = S.take n ++ [u] ∧
      phases (args u.run).inputMapPath.isSome (part u.run (S.take n)) = some P ∧
      AllAllowed uses f (S.take n ++ [u]) ∧ MeetsAt uses f (S.take n ++ [u]) u.run i t := by
  have hlt : n < S.length := (List.getElem?_eq_some_iff.1 hn).1
  have e : S.take (n + 1) = S.take n ++ [u] := by rw [List.take_add_one, hn]; rfl
  obtain ⟨Q, hQ⟩ := Option.isSome_iff_exists.1 (part_phases hu hS u.run (n + 1))
  rw [e, part_snoc, if_pos ⟨rfl, hb'⟩] at hQ
  obtain ⟨P, hP, hs⟩ := phases_last hQ
  have hA : AllAllowed uses f (S.take n ++ [u]) := by
    rw [← e]
    intro m x hm
    rw [List.getElem?_take] at hm
    split at hm
    · rw [List.take_take, Nat.min_eq_left (by omega)]
      exact ha m x hm
    · cases hm
  have hL : MeetsAt uses f (S.take n ++ [u]) u.run i t := by
    rw [← e]
    intro m hm hg
    rw [List.length_take] at hm
    rw [List.take_take, Nat.min_eq_left (by omega)]
    refine hl m (by omega) ?_
    unfold GetsLock at hg ⊢
    rwa [List.take_take, Nat.min_eq_left (by omega), List.take_take, Nat.min_eq_left (by omega), List.getElem?_take,
      if_pos (by omega)] at hg
  have hC : ∀ v ∈ S.take n, ¬ (v.run = u.run ∧ v.did.db = i ∧ v.did.stmt = .rollback) := by
    rintro v hv ⟨c1, c2, c3⟩
    obtain ⟨m, hm⟩ := List.mem_iff_getElem?.1 hv
    rw [List.getElem?_take] at hm
    split at hm
    · exact hS.2 m n v u ‹_› hm hn c3 ⟨c1.symm, hb.trans c2.symm⟩
    · cases hm
  obtain ⟨v, hv, h⟩ := stands_together hi hf (S.take n) P hP (all_init hA) (meets_init hL) hC
  exact ⟨P, Q, v, hs, hv, h, e, hP, hA, hL⟩

/-- What `stands_self` needs. -/
theorem meets_self {uses : Nat → DbId → Bool} {f g : File} {S : List Turn} {u : Turn} {t : Table}
    (ho : u.did.ok = true) (hl : MeetsAt uses f (S ++ [u]) u.run u.did.db t) (e : together uses f (S ++ [u]) = g) :
    whose u.run u.did.db ∉ (together uses f S).readers → whose u.run u.did.db ∈ g.readers ∨ u.did.stmt = .commit →
      (together uses f S).content = t := by
  intro h1 h2
  refine meets_last hl h1 ?_
  rw [e]
  refine h2.imp id fun e => ⟨rfl, ?_⟩
  obtain ⟨r', ⟨db, stmt, ok⟩, sp, kp⟩ := u
  simp only at e ho
  subst e; subst ho; rfl

/-- C115: each run gets its first lock on each map once. -/
theorem C115_looks (uses : Nat → DbId → Bool) (f : File) (env : Nat → Env) (args : Nat → InstArgs) (S : List Turn)
    (hu : ∀ r n, (env r).undo n = false) (hS : OfRuns env args S) (ha : AllAllowed uses f S) (r : Nat) (i : DbId)
    (hi : uses r i = true) : ∃ t, MeetsAt uses f S r i t := by
  have := part_phases hu hS r S.length
  rw [List.take_length] at this
  obtain ⟨P, hP⟩ := Option.isSome_iff_exists.1 this
  obtain ⟨t, h, -⟩ := meets_together hi S P hP ha hS.2
  exact ⟨t, h⟩

/-- C115: each run reads what it would read if it had the map for itself, the map being what it is when that run gets its
first lock. -/
theorem C115_reads (uses : Nat → DbId → Bool) (f : File) (env : Nat → Env) (args : Nat → InstArgs) (S : List Turn)
    (hu : ∀ r n, (env r).undo n = false) (hf : Idle f) (hS : OfRuns env args S) (ha : AllAllowed uses f S)
    (u : Turn) (t : Table) (n : Nat) (hn : S[n]? = some u) (ho : u.did.ok = true) (hi : uses u.run u.did.db = true)
    (hl : MeetsAt uses f S u.run u.did.db t) (hs : ReadsRows u.did.stmt) :
    (together uses f (S.take n)).sees (whose u.run u.did.db) = seesAlone u.did.db t (part u.run (S.take n)) := by
  obtain ⟨P, Q, v, h1, h2, h3, h4, -, h5, h6⟩ := turn_at hu hf hS ha hi hl hn rfl
    (by rcases hs with e | ⟨k, e⟩ <;> rw [e] <;> nofun)
  obtain ⟨h7, -⟩ := phaseStep_ok h1 ho
  have h8 : P u.did.db = .looking := by
    cases hp : P u.did.db <;> rw [hp] at h7 <;> rcases hs with e | ⟨k, e⟩ <;> rw [e] at h7 <;> first | rfl | cases h7
  rw [h8] at h3
  obtain ⟨g, hg, e⟩ := all_last h5 ho hi
  have h9 := meets_self ho h6 e
  have hm : whose u.run u.did.db ∈ g.readers := by
    have : (if (together uses f (S.take n)).canRead (whose u.run u.did.db) then
        some (if (together uses f (S.take n)).inTx (whose u.run u.did.db) then
          (together uses f (S.take n)).share (whose u.run u.did.db)
        else together uses f (S.take n)) else none) = some g := by
      rcases hs with e | ⟨k, e⟩ <;> rw [e] at hg <;> exact hg
    rw [h3.1, if_pos rfl] at this
    split at this
    · cases this; exact (share_readers _ _ _).2 (.inl rfl)
    · cases this
  rw [← h2]
  unfold File.sees
  rcases h3.2 with ⟨b, -, e⟩ | ⟨b, -, d, -⟩
  · rw [if_neg b, e, h9 b (.inl hm)]
  · rw [if_pos b, d]

/-- C115: when a run commits, the file still is what it was when that run got its first lock, and becomes what the run
makes of that if it has the map for itself. -/
theorem C115_commit (uses : Nat → DbId → Bool) (f : File) (env : Nat → Env) (args : Nat → InstArgs) (S : List Turn)
    (hu : ∀ r n, (env r).undo n = false) (hf : Idle f) (hS : OfRuns env args S) (ha : AllAllowed uses f S)
    (u : Turn) (t : Table) (n : Nat) (hn : S[n]? = some u) (hc : u.did = ⟨.main, .commit, true⟩)
    (hi : uses u.run .main = true) (hl : MeetsAt uses f S u.run .main t) :
    (together uses f (S.take n)).content = t ∧
    (together uses f (S.take (n + 1))).content = onDisk t (part u.run (S.take (n + 1))) := by
  obtain ⟨P, Q, v, h1, h2, h3, h4, -, h5, h6⟩ := turn_at hu hf hS ha hi hl hn (by rw [hc]) (by rw [hc]; nofun)
  have ho : u.did.ok = true := by rw [hc]
  have hdb : u.did.db = .main := by rw [hc]
  have hst : u.did.stmt = .commit := by rw [hc]
  obtain ⟨h7, -⟩ := phaseStep_ok h1 ho
  rw [← hdb] at h3 h6 hi
  obtain ⟨g, hg, e⟩ := all_last h5 ho hi
  obtain ⟨-, -, h8⟩ := stands_self h3 h7 hg (meets_self ho h6 e)
  obtain ⟨h8, h9, -⟩ := h8 hst
  refine ⟨h8, ?_⟩
  rw [h4, e, h9, h2, part_snoc, if_pos ⟨rfl, by rw [hc]; nofun⟩, hc]
  unfold onDisk
  rw [replay_snoc, if_pos ⟨rfl, rfl⟩]
  rfl

/-- C115: a commit that changes the file happens only while no other run has a lock. -/
theorem C115_exclusive (uses : Nat → DbId → Bool) (f : File) (env : Nat → Env) (args : Nat → InstArgs) (S : List Turn)
    (hu : ∀ r n, (env r).undo n = false) (hf : Idle f) (hS : OfRuns env args S) (ha : AllAllowed uses f S)
    (u : Turn) (n : Nat) (hn : S[n]? = some u) (hc : u.did = ⟨.main, .commit, true⟩) (hi : uses u.run .main = true)
    (t : Table) (hl : MeetsAt uses f S u.run .main t)
    (hw : (together uses f (S.take (n + 1))).content ≠ (together uses f (S.take n)).content) (x : Who)
    (hx : x ∈ (together uses f (S.take n)).readers) : x = whose u.run .main := by
  obtain ⟨P, Q, v, h1, h2, h3, h4, -, h5, h6⟩ := turn_at hu hf hS ha hi hl hn (by rw [hc]) (by rw [hc]; nofun)
  have ho : u.did.ok = true := by rw [hc]
  have hdb : u.did.db = .main := by rw [hc]
  have hst : u.did.stmt = .commit := by rw [hc]
  obtain ⟨h7, -⟩ := phaseStep_ok h1 ho
  rw [← hdb] at h3 h6 hi
  obtain ⟨g, hg, e⟩ := all_last h5 ho hi
  obtain ⟨-, -, h8⟩ := stands_self h3 h7 hg (meets_self ho h6 e)
  obtain ⟨h8, h9, h10⟩ := h8 hst
  have hlook : P u.did.db = .looking := by
    rw [hst] at h7
    cases hp : P u.did.db <;> rw [hp] at h7 <;> first | rfl | cases h7
  rw [hlook] at h3
  have hwr : (together uses f (S.take n)).writer = some (whose u.run u.did.db) := by
    refine Classical.byContradiction fun hno => hw ?_
    rw [h4, e, h9, h8]
    rcases h3.2 with ⟨-, -, e⟩ | ⟨-, -, -, e1, e2⟩
    · rw [e]
    · exact e2 (e1 hno)
  have := h10 hwr
  unfold File.canStore at this
  rw [List.all_eq_true] at this
  rw [← hdb]
  exact beq_iff_eq.1 (this x hx)

/-- C115: nothing but commits changes the file. -/
theorem C115_quiet (uses : Nat → DbId → Bool) (f : File) (env : Nat → Env) (args : Nat → InstArgs) (S : List Turn)
    (hu : ∀ r n, (env r).undo n = false) (hf : Idle f) (hS : OfRuns env args S) (ha : AllAllowed uses f S)
    (u : Turn) (n : Nat) (hn : S[n]? = some u) (hc : u.did ≠ ⟨.main, .commit, true⟩) :
    (together uses f (S.take (n + 1))).content = (together uses f (S.take n)).content := by
  by_cases h : u.did.ok = true ∧ uses u.run u.did.db = true
  · obtain ⟨ho, hi⟩ := h
    by_cases hb : u.did.stmt = .rollback
    · rw [List.take_add_one, hn]
      show (together uses f (S.take n ++ [u])).content = _
      rw [together_snoc]
      unfold Turn.act
      rw [if_pos (by rw [ho, hi]; rfl), hb]
      rfl
    obtain ⟨t, hl⟩ := C115_looks uses f env args S hu hS ha u.run u.did.db hi
    obtain ⟨P, Q, v, h1, h2, h3, h4, -, h5, h6⟩ := turn_at hu hf hS ha hi hl hn rfl hb
    obtain ⟨h7, -⟩ := phaseStep_ok h1 ho
    obtain ⟨g, hg, e⟩ := all_last h5 ho hi
    rw [h4, e]
    refine (stands_self h3 h7 hg (meets_self ho h6 e)).2.1 fun hst => ?_
    cases hdb : u.did.db with
    | main =>
      refine hc ?_
      obtain ⟨r, ⟨db, s, ok⟩, sp, kp⟩ := u
      simp only at hst ho hdb
      subst hst; subst ho; subst hdb; rfl
    | input =>
      obtain ⟨rest, hr⟩ := hS.1 u.run
      refine C52_input_unmodified (env u.run) (args u.run) u.did ?_ hdb (by rw [hst]; simp [Changes])
      rw [hr]
      refine List.mem_append_left _ (List.mem_map.2 ⟨u, List.mem_filter.2 ⟨List.mem_of_getElem? hn, ?_⟩, rfl⟩)
      simp [hb]
  · rw [List.take_add_one, hn]
    show (together uses f (S.take n ++ [u])).content = _
    rw [together_snoc]
    unfold Turn.act
    rw [if_neg (by simpa using h)]

theorem part_find {r : Nat} {l : List Did} {d : Did} (S : List Turn) : part r S = l ++ [d] →
    ∃ n u, S[n]? = some u ∧ u.run = r ∧ u.did = d ∧ part r (S.take (n + 1)) = l ++ [d] := by
  induction S using snoc_ind with
  | nil => intro h; have := congrArg List.length h; simp [part] at this
  | snoc S u ih =>
    intro h
    have h0 := h
    rw [part_snoc] at h
    by_cases hr : u.run = r ∧ u.did.stmt ≠ .rollback
    · rw [if_pos hr] at h
      obtain ⟨-, h2⟩ := List.append_inj' h rfl
      refine ⟨S.length, u, by simp, hr.1, by simpa using h2, ?_⟩
      rw [List.take_of_length_le (by simp)]; exact h0
    · rw [if_neg hr] at h
      obtain ⟨n, v, h1, h2, h3, h4⟩ := ih h
      have hlt : n < S.length := (List.getElem?_eq_some_iff.1 h1).1
      exact ⟨n, v, by rw [List.getElem?_append_left hlt]; exact h1, h2, h3,
        by rw [List.take_append_of_le_length (by omega)]; exact h4⟩

/-- C115: a run that comes to its end makes the file, at its commit, from what it is into what the run makes of it
alone. -/
theorem C115_done (uses : Nat → DbId → Bool) (f : File) (env : Nat → Env) (args : Nat → InstArgs) (S : List Turn)
    (hu : ∀ r n, (env r).undo n = false) (hf : Idle f) (hS : OfRuns env args S) (ha : AllAllowed uses f S)
    (r : Nat) (t t' : Table) (evs : List Event) (hv : (args r).command ≠ "vacuum")
    (h : Completes (env r) (args r) t t' evs) (hall : part r S = (computeThread (env r) (args r) World.start).2.trace)
    (hi : uses r .main = true) (hl : MeetsAt uses f S r .main t) :
    ∃ n u, S[n]? = some u ∧ u.run = r ∧ u.did = ⟨.main, .commit, true⟩ ∧ part r (S.take (n + 1)) = part r S ∧
      (together uses f (S.take n)).content = t ∧ (together uses f (S.take (n + 1))).content = t' := by
  obtain ⟨l, e⟩ := commit_last hv h
  obtain ⟨n, u, h1, h2, h3, h4⟩ := part_find S (hall.trans e)
  subst h2
  obtain ⟨h5, h6⟩ := C115_commit uses f env args S hu hf hS ha u t n h1 h3 hi hl
  refine ⟨n, u, h1, rfl, h3, h4.trans (hall.trans e).symm, h5, ?_⟩
  rw [h6, h4, ← e]
  exact (C55_done_partial (env u.run) (args u.run) t t' evs hv h).1

theorem phases_over {b : Bool} (l : List Did) : ∀ P, phases b l = some P → ⟨.main, .commit, true⟩ ∈ l →
    P .main = .over := by
  induction l using snoc_ind with
  | nil => intro P _ h; cases h
  | snoc l d ih =>
    intro Q hQ hm
    obtain ⟨P, hP, hs⟩ := phases_last hQ
    rcases List.mem_append.1 hm with hm | hm
    · have h := ih P hP hm
      by_cases ho : d.ok = true
      · obtain ⟨h1, h2, -⟩ := phaseStep_ok hs ho
        by_cases hd : d.db = .main
        · rw [hd, h] at h1
          generalize Q .main = z at h1 ⊢
          cases hq : d.stmt <;> rw [hq] at h1 <;> cases h1
          rfl
        · rw [h2 _ (Ne.symm hd)]; exact h
      · rw [phaseStep_bad hs ho]; exact h
    · rw [← List.mem_singleton.1 hm] at hs
      have h1 := (phaseStep_ok hs rfl).1
      simp only at h1
      generalize Q .main = z at h1 ⊢
      cases hp : P .main <;> rw [hp] at h1 <;> cases h1
      rfl

/-- A run commits once. -/
theorem commits_once {env : Nat → Env} {args : Nat → InstArgs} {S : List Turn} (hu : ∀ r n, (env r).undo n = false)
    (hS : OfRuns env args S) {m n : Nat} {u v : Turn} (hmn : m < n) (hm : S[m]? = some u) (hn : S[n]? = some v)
    (hr : u.run = v.run) (h1 : u.did = ⟨.main, .commit, true⟩) (h2 : v.did = ⟨.main, .commit, true⟩) : False := by
  have e : S.take (n + 1) = S.take n ++ [v] := by rw [List.take_add_one, hn]; rfl
  obtain ⟨Q, hQ⟩ := Option.isSome_iff_exists.1 (part_phases hu hS v.run (n + 1))
  rw [e, part_snoc, if_pos ⟨rfl, by rw [h2]; nofun⟩] at hQ
  obtain ⟨P, hP, hs⟩ := phases_last hQ
  have hmem : (⟨.main, .commit, true⟩ : Did) ∈ part v.run (S.take n) := by
    refine List.mem_map.2 ⟨u, List.mem_filter.2 ⟨List.mem_of_getElem? (i := m) ?_, by simp [hr, h1]⟩, h1⟩
    rw [List.getElem?_take, if_pos hmn]; exact hm
  have := phases_over _ P hP hmem
  rw [h2] at hs
  have h3 := (phaseStep_ok hs rfl).1
  simp only [this] at h3
  cases h3

theorem quiet_between {uses : Nat → DbId → Bool} {f : File} {env : Nat → Env} {args : Nat → InstArgs} {S : List Turn}
    (hu : ∀ r n, (env r).undo n = false) (hf : Idle f) (hS : OfRuns env args S) (ha : AllAllowed uses f S) {a b : Nat}
    (hab : a ≤ b) (h : ∀ n u, a ≤ n → n < b → S[n]? = some u → u.did ≠ ⟨.main, .commit, true⟩) :
    (together uses f (S.take b)).content = (together uses f (S.take a)).content := by
  induction b with
  | zero => rw [Nat.le_zero.1 hab]
  | succ b ih =>
    rcases Nat.lt_or_eq_of_le hab with h1 | rfl
    · rw [← ih (by omega) fun n u h2 h3 => h n u h2 (by omega)]
      cases hb : S[b]? with
      | none =>
        have := List.getElem?_eq_none_iff.1 hb
        rw [List.take_of_length_le this, List.take_of_length_le (by omega)]
      | some u => exact C115_quiet uses f env args S hu hf hS ha u b hb (h b u (by omega) (by omega) hb)
    · rfl

theorem two_ordered {uses : Nat → DbId → Bool} {f : File} {env : Nat → Env} {args : Nat → InstArgs} {S : List Turn}
    (hu : ∀ r n, (env r).undo n = false) (hf : Idle f) (hS : OfRuns env args S) (ha : AllAllowed uses f S)
    {p q : Nat} {tp tp' tq tq' : Table} (honly : ∀ u ∈ S, u.run = p ∨ u.run = q)
    {n m : Nat} (hnm : n < m) {u v : Turn} (hn : S[n]? = some u) (hm : S[m]? = some v)
    (hup : u.run = p) (hvq : v.run = q) (hcu : u.did = ⟨.main, .commit, true⟩) (hcv : v.did = ⟨.main, .commit, true⟩)
    (hp : (together uses f (S.take n)).content = tp) (hp' : (together uses f (S.take (n + 1))).content = tp')
    (hq : (together uses f (S.take m)).content = tq) (hq' : (together uses f (S.take (m + 1))).content = tq') :
    f.content = tp ∧ tp' = tq ∧ (together uses f S).content = tq' := by
  have no : ∀ k w, S[k]? = some w → w.did = ⟨.main, .commit, true⟩ → k = n ∨ k = m := by
    intro k w hk hc
    rcases honly w (List.mem_of_getElem? hk) with e | e
    · rcases Nat.lt_trichotomy k n with h | h | h
      · exact (commits_once hu hS h hk hn (e.trans hup.symm) hc hcu).elim
      · exact .inl h
      · exact (commits_once hu hS h hn hk (hup.trans e.symm) hcu hc).elim
    · rcases Nat.lt_trichotomy k m with h | h | h
      · exact (commits_once hu hS h hk hm (e.trans hvq.symm) hc hcv).elim
      · exact .inr h
      · exact (commits_once hu hS h hm hk (hvq.trans e.symm) hcv hc).elim
  have hml : m < S.length := (List.getElem?_eq_some_iff.1 hm).1
  refine ⟨?_, ?_, ?_⟩
  · rw [← hp, quiet_between hu hf hS ha (Nat.zero_le n) fun k w _ h2 h3 hc => by
      rcases no k w h3 hc with e | e <;> omega]
    rfl
  · rw [← hp', ← hq, quiet_between hu hf hS ha (show n + 1 ≤ m from hnm) fun k w h1 h2 h3 hc => by
      rcases no k w h3 hc with e | e <;> omega]
  · rw [← hq', ← quiet_between hu hf hS ha (show m + 1 ≤ S.length from hml) fun k w h1 h2 h3 hc => by
      rcases no k w h3 hc with e | e <;> omega, List.take_length]

/-- C115: two runs on the same map at the same time that both come to their ends have worked one after the other, in one
of the two orders: the second on what the first has made. -/
theorem C115_two (uses : Nat → DbId → Bool) (f : File) (env : Nat → Env) (args : Nat → InstArgs) (S : List Turn)
    (hu : ∀ r n, (env r).undo n = false) (hf : Idle f) (hS : OfRuns env args S) (ha : AllAllowed uses f S)
    (p q : Nat) (hpq : p ≠ q) (tp tp' tq tq' : Table) (evs evs' : List Event)
    (hv : (args p).command ≠ "vacuum") (hv' : (args q).command ≠ "vacuum")
    (h : Completes (env p) (args p) tp tp' evs) (h' : Completes (env q) (args q) tq tq' evs')
    (hall : part p S = (computeThread (env p) (args p) World.start).2.trace)
    (hall' : part q S = (computeThread (env q) (args q) World.start).2.trace)
    (honly : ∀ u ∈ S, u.run = p ∨ u.run = q)
    (hi : uses p .main = true) (hi' : uses q .main = true)
    (hl : MeetsAt uses f S p .main tp) (hl' : MeetsAt uses f S q .main tq) :
    (f.content = tp ∧ tp' = tq ∧ (together uses f S).content = tq') ∨
    (f.content = tq ∧ tq' = tp ∧ (together uses f S).content = tp') := by
  obtain ⟨n, u, a1, a2, a3, -, a4, a5⟩ := C115_done uses f env args S hu hf hS ha p tp tp' evs hv h hall hi hl
  obtain ⟨m, v, b1, b2, b3, -, b4, b5⟩ := C115_done uses f env args S hu hf hS ha q tq tq' evs' hv' h' hall' hi' hl'
  rcases Nat.lt_trichotomy n m with e | e | e
  · exact .inl (two_ordered hu hf hS ha honly e a1 b1 a2 b2 a3 b3 a4 a5 b4 b5)
  · subst e
    rw [a1] at b1
    cases b1
    exact absurd (a2.symm.trans b2) hpq
  · exact .inr (two_ordered hu hf hS ha (fun u hu => (honly u hu).symm) e b1 a1 b2 a2 b3 a3 b4 b5 a4 a5)

theorem onDisk_over {b : Bool} {t : Table} {l : List Did} (hc : ⟨.main, .commit, true⟩ ∈ l) (l' : List Did) :
    (phases b (l ++ l')).isSome = true → onDisk t (l ++ l') = onDisk t l := by
  induction l' using snoc_ind with
  | nil => intro _; rw [List.append_nil]
  | snoc l' d ih =>
    intro h
    obtain ⟨Q, hQ⟩ := Option.isSome_iff_exists.1 h
    rw [← List.append_assoc] at hQ ⊢
    obtain ⟨P, hP, hs⟩ := phases_last hQ
    rw [← ih (by rw [hP]; rfl)]
    unfold onDisk
    rw [replay_snoc]
    split
    · rename_i hd
      have h1 := (phaseStep_ok hs hd.2).1
      rw [hd.1, phases_over _ P hP (List.mem_append_left _ hc)] at h1
      generalize Q .main = z at h1
      cases hq : d.stmt <;> rw [hq] at h1 <;> cases h1
      rfl
    · rfl

theorem inTurn_snoc {made : Nat → Table × Table} (R : List Nat) (r : Nat) : ∀ {t t' : Table}, InTurn made t R t' →
    (made r).1 = t' → InTurn made t (R ++ [r]) (made r).2 := by
  induction R with
  | nil => intro t t' h h1; exact ⟨h1.trans h, rfl⟩
  | cons q R ih => intro t t' h h1; exact ⟨h.1, ih h.2 h1⟩

theorem commits_snoc (uses : Nat → DbId → Bool) (S : List Turn) (u : Turn) : commits uses (S ++ [u]) =
    if u.did = ⟨.main, .commit, true⟩ ∧ uses u.run .main = true then commits uses S ++ [u.run] else commits uses S := by
  unfold commits
  rw [List.filter_append, List.map_append]
  split <;> rename_i h <;> simp [h]

/-- C115: whatever the order of their statements, and whether or not they come to their ends: those runs that commit have
worked one after the other, in the order of their commits, each by itself on what the one before it has made; the others
have done nothing. -/
theorem C115_serial (uses : Nat → DbId → Bool) (f : File) (env : Nat → Env) (args : Nat → InstArgs) (S : List Turn)
    (hu : ∀ r n, (env r).undo n = false) (hf : Idle f) (hS : OfRuns env args S) (ha : AllAllowed uses f S)
    (T : Nat → Table) (hT : ∀ r, uses r .main = true → MeetsAt uses f S r .main (T r)) :
    (commits uses S).Nodup ∧
    InTurn (fun r => (T r, onDisk (T r) (part r S))) f.content (commits uses S) (together uses f S).content := by
  suffices h : ∀ n ≤ S.length, (commits uses (S.take n)).Nodup ∧
      InTurn (fun r => (T r, onDisk (T r) (part r S))) f.content (commits uses (S.take n))
        (together uses f (S.take n)).content by
    have := h S.length (Nat.le_refl _)
    rwa [List.take_length] at this
  intro n
  induction n with
  | zero => intro _; exact ⟨List.Pairwise.nil, rfl⟩
  | succ n ih =>
    intro hn
    obtain ⟨h1, h2⟩ := ih (by omega)
    obtain ⟨u, hnu⟩ : ∃ u, S[n]? = some u := ⟨S[n], List.getElem?_eq_some_iff.2 ⟨by omega, rfl⟩⟩
    have e : S.take (n + 1) = S.take n ++ [u] := by rw [List.take_add_one, hnu]; rfl
    by_cases hc : u.did = ⟨.main, .commit, true⟩ ∧ uses u.run .main = true
    · have h3 : commits uses (S.take (n + 1)) = commits uses (S.take n) ++ [u.run] := by rw [e, commits_snoc, if_pos hc]
      rw [h3]
      constructor
      · refine List.nodup_append.2 ⟨h1, by simp, ?_⟩
        intro r hr q hq e2
        rw [List.mem_singleton.1 hq] at e2
        obtain ⟨v, hv, e3⟩ := List.mem_map.1 hr
        obtain ⟨hv, h4⟩ := List.mem_filter.1 hv
        obtain ⟨m, hm⟩ := List.mem_iff_getElem?.1 hv
        rw [List.getElem?_take] at hm
        split at hm
        · refine commits_once hu hS ‹_› hm hnu (e3.trans e2) ?_ hc.1
          simp only [Bool.and_eq_true, beq_iff_eq] at h4
          exact h4.1
        · cases hm
      · obtain ⟨h4, h5⟩ := C115_commit uses f env args S hu hf hS ha u (T u.run) n hnu hc.1 hc.2 (hT _ hc.2)
        have h6 : onDisk (T u.run) (part u.run S) = onDisk (T u.run) (part u.run (S.take (n + 1))) := by
          have h7 : part u.run S = part u.run (S.take (n + 1)) ++ part u.run (S.drop (n + 1)) := by
            rw [← part_append, List.take_append_drop]
          have h8 := part_phases hu hS u.run S.length
          rw [List.take_length, h7] at h8
          rw [h7]
          refine onDisk_over ?_ _ h8
          rw [e, part_snoc, if_pos ⟨rfl, by rw [hc.1]; nofun⟩, hc.1]
          exact List.mem_append_right _ (List.mem_singleton.2 rfl)
        rw [h5, ← h6]
        exact inTurn_snoc (made := fun r => (T r, onDisk (T r) (part r S))) _ _ h2 h4.symm
    · have h3 : commits uses (S.take (n + 1)) = commits uses (S.take n) := by rw [e, commits_snoc, if_neg hc]
      rw [h3]
      refine ⟨h1, ?_⟩
      suffices h : (together uses f (S.take (n + 1))).content = (together uses f (S.take n)).content by rwa [h]
      by_cases hd : u.did = ⟨.main, .commit, true⟩
      · have hno : ¬ uses u.run .main = true := fun h => hc ⟨hd, h⟩
        rw [e, together_snoc]
        unfold Turn.act
        rw [hd, if_neg (by simpa using hno)]
      · exact C115_quiet uses f env args S hu hf hS ha u n hnu hd

theorem allAllowed_of {uses : Nat → DbId → Bool} {f : File} {S : List Turn} (h : (List.range S.length).all (fun n =>
    match S[n]? with
    | none => true
    | some u => !u.did.ok || !uses u.run u.did.db ||
      ((together uses f (S.take n)).step (whose u.run u.did.db) u.spill u.keep u.did.stmt).isSome) = true) :
    AllAllowed uses f S := by
  intro n u hd ho hu
  have := List.all_eq_true.1 h n (List.mem_range.2 (List.getElem?_eq_some_iff.1 hd).1)
  rw [hd] at this
  simpa [ho, hu] using this

theorem meetsAt_of {uses : Nat → DbId → Bool} {f : File} {S : List Turn} {r : Nat} {i : DbId} {t : Table}
    (h : (List.range S.length).all (fun n =>
      decide (whose r i ∈ (together uses f (S.take n)).readers) ||
      !(decide (whose r i ∈ (together uses f (S.take (n + 1))).readers) ||
        (S[n]?.any fun u => u.run == r && decide (u.did = ⟨i, .commit, true⟩))) ||
      decide ((together uses f (S.take n)).content = t)) = true) : MeetsAt uses f S r i t := by
  rintro n hn ⟨h1, h2⟩
  have := List.all_eq_true.1 h n (List.mem_range.2 hn)
  rw [decide_eq_false h1, Bool.false_or, Bool.or_eq_true] at this
  rcases this with h | h
  · refine absurd h ?_
    rcases h2 with h2 | ⟨u, h3, h4, h5⟩
    · simp [h2]
    · simp [h3, h4, h5]
  · exact of_decide_eq_true h

theorem onlyRefused_of {uses : Nat → DbId → Bool} {f : File} {S : List Turn} (h : (List.range S.length).all (fun n =>
    match S[n]? with
    | none => true
    | some u => u.did.ok || (uses u.run u.did.db &&
      ((together uses f (S.take n)).step (whose u.run u.did.db) u.spill u.keep u.did.stmt).isNone)) = true) :
    OnlyRefused uses f S := by
  intro n u hd ho
  have := List.all_eq_true.1 h n (List.mem_range.2 (List.getElem?_eq_some_iff.1 hd).1)
  rw [hd] at this
  simpa [ho] using this

/-- No connection is used after it has been closed, -/
def noneClosed (S : List Turn) : Bool :=
  (List.range S.length).all fun n => (List.range n).all fun m =>
    match S[m]?, S[n]? with
    | some u, some v => !(u.did.stmt == .rollback && v.run == u.run && v.did.db == u.did.db)
    | _, _ => true

theorem noneClosed_of {S : List Turn} (h : noneClosed S = true) : NoneClosed S := by
  rintro m n u v hmn hm hn h1 ⟨h2, h3⟩
  have := List.all_eq_true.1 h n (List.mem_range.2 (List.getElem?_eq_some_iff.1 hn).1)
  have := List.all_eq_true.1 this m (List.mem_range.2 hmn)
  rw [hm, hn] at this
  simp [h1, h2, h3] at this

/-- and other runs do nothing. -/
theorem part_none {S : List Turn} {r b : Nat} (h : S.all (fun u => u.run < b) = true) (hb : b ≤ r) : part r S = [] := by
  unfold part
  rw [List.filter_eq_nil_iff.2, List.map_nil]
  intro u hu e
  have := List.all_eq_true.1 h u hu
  simp only [Bool.and_eq_true, beq_iff_eq, decide_eq_true_eq] at e this
  omega

/-- What the first of the runs makes of the map. -/
def pairFile : DbFile := { lostFile with table := [(0, [28, 0]), (2, [28, 1]), (1, [28, 1])] }

/-- Run 0 is an `overlay`.  Run 2, a `deleteblocks`, is refused its first deletion because of that.  The map is what run 0
makes of it when run 1, the same as run 2, gets its lock. -/
def pairEnv : Nat → Env
  | 1 => { calmEnv with fs := fun p => if p = "map" then some pairFile else none }
  | 2 => { calmEnv with fail := fun n => n == 5 }
  | _ => calmEnv

def pairArgs : Nat → InstArgs
  | 0 => lostArgs
  | _ => { runArgs false "deleteblocks" "map" none with area := some ⟨⟨5, 0, 0⟩, ⟨47, 15, 15⟩⟩ }

def pairTrace (r : Nat) : List Did := (computeThread (pairEnv r) (pairArgs r) World.start).2.trace

/-- Run 1 opens the map before run 0 does, and begins and looks at the columns while run 0 is writing, with a version of
SQLite that does not keep the lock of `PRAGMA table_info`.  Before run 0 commits run 2 fails; its process ends. -/
def pairTurns : List Turn :=
  let a (d : Did) : Turn := ⟨0, d, false, false⟩
  let b (d : Did) : Turn := ⟨1, d, false, false⟩
  let c (d : Did) : Turn := ⟨2, d, false, true⟩
  ((pairTrace 1).take 1).map b ++ ((pairTrace 0).take 11).map a ++ (((pairTrace 1).drop 1).take 3).map b ++
    ((pairTrace 2).take 4).map c ++ (((pairTrace 0).drop 11).take 4).map a ++ ((pairTrace 2).drop 4).map c ++
    [c ⟨.main, .rollback, true⟩] ++ ((pairTrace 0).drop 15).map a ++ ((pairTrace 1).drop 4).map b

def pairUses (_ : Nat) (i : DbId) : Bool := i == .main

/-- What is in the map when each run gets its first lock. -/
def pairMeets : Nat → Table
  | 1 => pairFile.table
  | _ => lostFile.table

theorem pair_runs : OfRuns pairEnv pairArgs pairTurns := by
  refine ⟨fun r => ?_, noneClosed_of (by decide)⟩
  match r with
  | 0 => exact ⟨[], by decide⟩
  | 1 => exact ⟨[], by decide⟩
  | 2 => exact ⟨[], by decide⟩
  | r + 3 => exact ⟨_, by rw [part_none (b := 3) (by decide) (by omega)]; exact (List.nil_append _).symm⟩

/-- The hypotheses of `C115_serial` are met: two runs come to their ends, and the rows the first one copied are deleted by
the second one; the third run panics. -/
example : (∀ r n, (pairEnv r).undo n = false) ∧ Idle (idleFile lostFile.table) ∧ OfRuns pairEnv pairArgs pairTurns ∧
    AllAllowed pairUses (idleFile lostFile.table) pairTurns ∧ OnlyRefused pairUses (idleFile lostFile.table) pairTurns ∧
    (∃ evs, Completes (pairEnv 0) (pairArgs 0) lostFile.table pairFile.table evs) ∧
    (∃ evs, Completes (pairEnv 1) (pairArgs 1) pairFile.table [(0, [28, 0])] evs) ∧
    (∃ e, (computeThread (pairEnv 2) (pairArgs 2) World.start).1 = .error e) ∧
    (∀ r < 3, MeetsAt pairUses (idleFile lostFile.table) pairTurns r .main (pairMeets r)) ∧
    commits pairUses pairTurns = [0, 1] ∧
    (together pairUses (idleFile lostFile.table) pairTurns).content = [(0, [28, 0])] ∧
    (pairTurns.map (·.run)) =
      [1, 0, 0, 0, 0, 0, 0, 0, 0, 0, 0, 0, 1, 1, 1, 2, 2, 2, 2, 0, 0, 0, 0, 2, 2, 2, 0, 1, 1, 1, 1] := by
  refine ⟨fun r n => ?_, ⟨by simp [idleFile], by simp [idleFile]⟩, pair_runs, allAllowed_of (by decide),
    onlyRefused_of (by decide), ⟨_, _, _, _, rfl, rfl, rfl, rfl, by decide, rfl, rfl⟩,
    ⟨_, _, _, _, rfl, rfl, rfl, rfl, by decide, rfl, rfl⟩, ⟨_, rfl⟩, fun r hr => ?_, by decide, by decide, by decide⟩
  · unfold pairEnv
    split <;> rfl
  · match r, hr with
    | 0, _ => exact meetsAt_of (by decide)
    | 1, _ => exact meetsAt_of (by decide)
    | 2, _ => exact meetsAt_of (by decide)

/-- The hypotheses of `C115_two` are met if the third run is not there. -/
example : let S := pairTurns.filter (·.run != 2)
    OfRuns pairEnv pairArgs S ∧ AllAllowed pairUses (idleFile lostFile.table) S ∧
    part 0 S = (computeThread (pairEnv 0) (pairArgs 0) World.start).2.trace ∧
    part 1 S = (computeThread (pairEnv 1) (pairArgs 1) World.start).2.trace ∧
    (∀ u ∈ S, u.run = 0 ∨ u.run = 1) ∧
    MeetsAt pairUses (idleFile lostFile.table) S 0 .main lostFile.table ∧
    MeetsAt pairUses (idleFile lostFile.table) S 1 .main pairFile.table := by
  refine ⟨⟨fun r => ?_, noneClosed_of (by decide)⟩, allAllowed_of (by decide), by decide, by decide, by decide,
    meetsAt_of (by decide), meetsAt_of (by decide)⟩
  match r with
  | 0 => exact ⟨[], by decide⟩
  | 1 => exact ⟨[], by decide⟩
  | r + 2 => exact ⟨_, by rw [part_none (b := 2) (by decide) (by omega)]; exact (List.nil_append _).symm⟩

/-- Both runs work on the same map, and one statement of each is refused. -/
def stuckEnv (r : Nat) : Env := { calmEnv with fail := fun n => n == if r = 1 then 5 else 15 }

def stuckTrace (r : Nat) : List Did := (computeThread (stuckEnv r) (pairArgs r) World.start).2.trace

/-- Run 1 works while run 0 has yet to commit. -/
def stuckTurns : List Turn :=
  ((stuckTrace 0).take 15).map (⟨0, ·, false, false⟩) ++ (stuckTrace 1).map (⟨1, ·, false, false⟩) ++
    ((stuckTrace 0).drop 15).map (⟨0, ·, false, false⟩)

/-- Of two runs at the same time both may fail, though each of them comes to its end alone, and nothing fails but what
SQLite refuses because of the other: one may not write since the other has written, and that may not commit since the
first has read.  The first ends by a panic, the second with an error.  (The program does not wait for others, and does not
try again.) -/
theorem C115_both_false : ∃ uses f env args S t p q, p ≠ q ∧ (∀ r n, (env r).undo n = false) ∧ Idle f ∧
    OfRuns env args S ∧ AllAllowed uses f S ∧ OnlyRefused uses f S ∧ f.content = t ∧
    (∀ r, r = p ∨ r = q → (args r).command ≠ "vacuum" ∧ uses r .main = true ∧
      part r S = (computeThread (env r) (args r) World.start).2.trace ∧
      (computeThread (env r) (args r) World.start).1 ≠ .ok (.ok ()) ∧ MeetsAt uses f S r .main t ∧
      ∃ t' evs, Completes { env r with fail := fun _ => false } (args r) t t' evs) ∧
    (∀ u ∈ S, u.run = p ∨ u.run = q) := by
  refine ⟨pairUses, idleFile lostFile.table, stuckEnv, pairArgs, stuckTurns, lostFile.table, 0, 1, by decide,
    fun _ _ => rfl, ⟨by simp [idleFile], by simp [idleFile]⟩, ?_, allAllowed_of (by decide), onlyRefused_of (by decide), rfl,
    ?_, by decide⟩
  · refine ⟨fun r => ?_, noneClosed_of (by decide)⟩
    match r with
    | 0 => exact ⟨[], by decide⟩
    | 1 => exact ⟨[], by decide⟩
    | r + 2 => exact ⟨_, by rw [part_none (b := 2) (by decide) (by omega)]; exact (List.nil_append _).symm⟩
  · rintro _ (rfl | rfl)
    · exact ⟨by decide, rfl, by decide, nofun, meetsAt_of (by decide), _, _, _, _, _, rfl, rfl, rfl, rfl, by decide, rfl, rfl⟩
    · exact ⟨by decide, rfl, by decide, nofun, meetsAt_of (by decide), _, _, _, _, _, rfl, rfl, rfl, rfl, by decide, rfl, rfl⟩

end MapEditr
