import Verif.Driver.Spec
import Verif.Driver.Lemmas
import Verif.Stream.Props
/-! What getContentsOfObject returns. -/
namespace Disko.Driver
open Disko Spec BlockCache BlockCache.Spec

variable {σ H : Type}

/-! ### Fetching that does not change the storage -/

section quiet
variable {b : Backend σ} (hq : ∀ s i buf, (b.fetch s i buf).1 = s)
include hq

theorem loadLoop_quiet : ∀ (n i : Nat) (st st' : St σ) (e : Option BlockCache.Err), loadLoop b n i st = .ret (st', e) →
    st'.s = st.s ∧ ((∀ j, st.c.dirty.getD j false = false) → ∀ j, st'.c.dirty.getD j false = false)
  | 0, i, st, st', e, h => by
    rw [loadLoop] at h; cases h; exact ⟨rfl, id⟩
  | n + 1, i, st, st', e, h => by
    rw [loadLoop] at h
    rcases hb : bitGet st.c.loaded i with l | _ | _
    · rw [hb] at h
      simp only [Outcome.bind_ret] at h
      cases l with
      | true => exact loadLoop_quiet n (i + 1) st st' e h
      | false =>
        simp only [Bool.false_eq_true, if_false] at h
        split at h
        · have hf := hq st.s i (slice st.c.data (u64 (i * st.c.bpb)) (u64 (u64 (i * st.c.bpb) + st.c.bpb) - u64 (i * st.c.bpb)))
          rcases hfe : b.fetch st.s i (slice st.c.data (u64 (i * st.c.bpb)) (u64 (u64 (i * st.c.bpb) + st.c.bpb) - u64 (i * st.c.bpb))) with ⟨s1, buf1, e1⟩
          rw [hfe] at h hf
          simp only at hf
          cases e1 with
          | some e1 => simp only [Outcome.pure_eq] at h; cases h; exact ⟨hf, id⟩
          | none =>
            simp only at h
            rcases hl : bitSet st.c.loaded i true with l' | _ | _
            · rw [hl] at h
              simp only [Outcome.bind_ret] at h
              rcases hd : bitSet st.c.dirty i false with d' | _ | _
              · rw [hd] at h
                simp only [Outcome.bind_ret] at h
                obtain ⟨r1, r2⟩ := loadLoop_quiet n (i + 1) _ st' e h
                refine ⟨r1.trans hf, fun hc => r2 ?_⟩
                intro j
                show d'.getD j false = false
                unfold bitSet at hd
                split at hd
                · rename_i hlt
                  cases hd
                  rw [getD_set _ _ _ _ hlt]
                  split
                  · rfl
                  · exact hc j
                · cases hd
              · rw [hd] at h; cases h
              · rw [hd] at h; cases h
            · rw [hl] at h; cases h
            · rw [hl] at h; cases h
        · cases h
    · rw [hb] at h; cases h
    · rw [hb] at h; cases h

theorem getSlice_quiet {st st' : St σ} {i n : Nat} {r : Except BlockCache.Err Window} (h : getSlice b st i n = .ret (st', r)) :
    st'.s = st.s ∧ ((∀ j, st.c.dirty.getD j false = false) → ∀ j, st'.c.dirty.getD j false = false) := by
  have key : ∀ st1 e, loadBlockRange b st i n = .ret (st1, e) →
      st1.s = st.s ∧ ((∀ j, st.c.dirty.getD j false = false) → ∀ j, st1.c.dirty.getD j false = false) := by
    intro st1 e h1
    unfold loadBlockRange at h1
    rcases hc : st.c.checkBounds i (u64 (n * st.c.bpb)) with c | _ | _
    · rw [hc] at h1
      simp only [Outcome.bind_ret] at h1
      cases c with
      | some c => simp only [Outcome.pure_eq] at h1; cases h1; exact ⟨rfl, id⟩
      | none => exact loadLoop_quiet hq _ _ _ _ _ h1
    · rw [hc] at h1; cases h1
    · rw [hc] at h1; cases h1
  unfold getSlice at h
  rcases hl : loadBlockRange b st i n with ⟨st1, e⟩ | _ | _
  · rw [hl] at h
    simp only [Outcome.bind_ret] at h
    have k := key st1 e hl
    cases e with
    | some e => simp only [Outcome.pure_eq] at h; cases h; exact k
    | none =>
      simp only at h
      split at h
      · simp only [Outcome.pure_eq] at h; cases h; exact k
      · cases h
  · rw [hl] at h; cases h
  · rw [hl] at h; cases h

/-- The part of ReadAt after the address computations. -/
theorem readTail_quiet {x x' : Stream.Stm σ} {r : Stream.ReadRes} {a n : Nat} {f : St σ → Window → Outcome (Stream.Stm σ × Stream.ReadRes)}
    {g : St σ → BlockCache.Err → Stream.ReadRes}
    (hf : ∀ st w x' r, f st w = .ret (x', r) → x'.st = st)
    (h : (getSlice b x.st a n >>= fun y => match y with
      | (st', .error e) => .ret ({ x with st := st' }, g st' e)
      | (st', .ok w) => f st' w) = .ret (x', r)) :
    x'.st.s = x.st.s ∧ ((∀ j, x.st.c.dirty.getD j false = false) → ∀ j, x'.st.c.dirty.getD j false = false) := by
  rcases h3 : getSlice b x.st a n with ⟨st1, r1⟩ | _ | _
  · rw [h3, Outcome.bind_ret] at h
    have k := getSlice_quiet hq h3
    cases r1 with
    | error e => simp only at h; cases h; exact k
    | ok w => simp only at h; rw [hf _ _ _ _ h]; exact k
  · rw [h3] at h; cases h
  · rw [h3] at h; cases h

theorem readAt_quiet {x x' : Stream.Stm σ} {buf : Bytes} {off : Int} {r : Stream.ReadRes} (h : Stream.readAt b x buf off = .ret (x', r)) :
    x'.st.s = x.st.s ∧ ((∀ j, x.st.c.dirty.getD j false = false) → ∀ j, x'.st.c.dirty.getD j false = false) := by
  unfold Stream.readAt at h
  split at h
  · simp only [Outcome.pure_eq] at h; cases h; exact ⟨rfl, id⟩
  · split at h
    · simp only [Outcome.pure_eq] at h; cases h; exact ⟨rfl, id⟩
    · split at h
      · simp only [Outcome.pure_eq] at h; cases h; exact ⟨rfl, id⟩
      · rcases h1 : Stream.convertLinearAddr x off with ⟨a1, a2⟩ | _ | _
        · rw [h1, Outcome.bind_ret] at h
          have key : ∀ (nb : Int), (Stream.convertLinearAddr x (i64 (i64 (off + nb) - 1)) >>= fun p => getSlice b x.st a1 (u64 (u64sub p.1 a1 + 1)) >>= fun y => match y with
              | (st', .error e) => (.ret ({ x with st := st' }, ⟨buf, 0, some (.cache e)⟩) : Outcome (Stream.Stm σ × Stream.ReadRes))
              | (st', .ok w) => if a2 ≤ u64 (a2 + Stream.toUint nb) ∧ w.off + u64 (a2 + Stream.toUint nb) ≤ st'.c.data.length then
                  .ret ({ x with st := st' }, ⟨goCopy buf (slice st'.c.data (w.off + a2) (u64 (a2 + Stream.toUint nb) - a2)), nb, if nb < (buf.length : Int) then some Stream.SErr.eof else none⟩)
                else .panic) = .ret (x', r) →
              x'.st.s = x.st.s ∧ ((∀ j, x.st.c.dirty.getD j false = false) → ∀ j, x'.st.c.dirty.getD j false = false) := by
            intro nb h
            rcases h2 : Stream.convertLinearAddr x (i64 (i64 (off + nb) - 1)) with ⟨c1, c2⟩ | _ | _
            · rw [h2, Outcome.bind_ret] at h
              refine readTail_quiet hq ?_ h
              intro st w x1 r1 h4
              split at h4
              · cases h4; rfl
              · cases h4
            · rw [h2] at h; cases h
            · rw [h2] at h; cases h
          exact key _ h
        · rw [h1] at h; cases h
        · rw [h1] at h; cases h

theorem read_quiet {x x' : Stream.Stm σ} {buf : Bytes} {r : Stream.ReadRes} (h : Stream.read b x buf = .ret (x', r)) :
    x'.st.s = x.st.s ∧ ((∀ j, x.st.c.dirty.getD j false = false) → ∀ j, x'.st.c.dirty.getD j false = false) := by
  unfold Stream.read at h
  rcases h1 : Stream.readAt b x buf x.position with ⟨x1, r1⟩ | _ | _
  · rw [h1] at h
    simp only [Outcome.bind_ret] at h
    have k := readAt_quiet hq h1
    rcases he : r1.err with _ | e
    · rw [he] at h; simp only [Outcome.pure_eq] at h; cases h; exact k
    · rw [he] at h; simp only [Outcome.pure_eq] at h; cases h; exact k
  · rw [h1] at h; cases h
  · rw [h1] at h; cases h

end quiet

/-- Flushing a cache without dirty blocks. -/
theorem flushLoop_clean (b : Backend σ) : ∀ (n i : Nat) (st st' : St σ) (e : Option BlockCache.Err),
    (∀ j, st.c.dirty.getD j false = false) → flushLoop b n i st = .ret (st', e) → st' = st
  | 0, i, st, st', e, _, h => by rw [flushLoop] at h; cases h; rfl
  | n + 1, i, st, st', e, hc, h => by
    rw [flushLoop] at h
    rcases hb : bitGet st.c.dirty i with l | _ | _
    · have hl : l = false := by
        unfold bitGet at hb
        split at hb
        · rename_i b' hb'
          cases hb
          have := hc i
          rw [List.getD_eq_getElem?_getD, hb'] at this
          exact this
        · cases hb
      rw [hb, hl] at h
      exact flushLoop_clean b n (i + 1) st st' e hc h
    · rw [hb] at h; cases h
    · rw [hb] at h; cases h

theorem sync_clean {b : Backend σ} {x x' : Stream.Stm σ} {e : Option Stream.SErr} (hc : ∀ j, x.st.c.dirty.getD j false = false)
    (h : Stream.sync b x = .ret (x', e)) : x'.st.s = x.st.s := by
  have key : ∀ st1 e, flushBlockRange b x.st 0 x.st.c.total = .ret (st1, e) → st1 = x.st := by
    intro st1 e h1
    unfold flushBlockRange at h1
    rcases hk : x.st.c.checkBounds 0 (u64 (x.st.c.total * x.st.c.bpb)) with c | _ | _
    · rw [hk] at h1
      simp only [Outcome.bind_ret] at h1
      cases c with
      | some c => simp only [Outcome.pure_eq] at h1; cases h1; rfl
      | none => exact flushLoop_clean b _ _ _ _ _ hc h1
    · rw [hk] at h1; cases h1
    · rw [hk] at h1; cases h1
  unfold Stream.sync BlockCache.flush at h
  rcases hl : flushBlockRange b x.st 0 x.st.c.total with ⟨st1, e1⟩ | _ | _
  · rw [hl] at h
    simp only [Outcome.bind_ret] at h
    have k := key st1 e1 hl
    cases e1 with
    | some e1 => simp only [Outcome.pure_eq, Outcome.bind_ret] at h; cases h; rw [k]
    | none => simp only [Outcome.pure_eq, Outcome.bind_ret] at h; cases h; rw [k]
  · rw [hl] at h; cases h
  · rw [hl] at h; cases h

theorem flushLoop_clean_congr (b b' : Backend σ) : ∀ (n i : Nat) (st : St σ),
    (∀ j, st.c.dirty.getD j false = false) → flushLoop b n i st = flushLoop b' n i st
  | 0, _, _, _ => rfl
  | n + 1, i, st, hc => by
    rw [flushLoop, flushLoop]
    rcases hb : bitGet st.c.dirty i with l | _ | _
    · have hl : l = false := by
        unfold bitGet at hb
        split at hb
        · rename_i b' hb'
          cases hb
          have := hc i
          rw [List.getD_eq_getElem?_getD, hb'] at this
          exact this
        · cases hb
      rw [hl]
      exact flushLoop_clean_congr b b' n (i + 1) st hc
    · rfl
    · rfl

theorem sync_clean_congr (b b' : Backend σ) {x : Stream.Stm σ} (hc : ∀ j, x.st.c.dirty.getD j false = false) :
    Stream.sync b x = Stream.sync b' x := by
  unfold Stream.sync BlockCache.flush flushBlockRange
  simp only [flushLoop_clean_congr b b' _ _ _ hc]

/-- The backend without its resize callback. -/
def frozen (b : Backend σ) : Backend σ := { b with resize := fun s _ => (s, some (.other 0)) }

/-! ### getContentsOfObject -/

theorem lawful_read {impl : Impl σ H} {h : H} {bpb : Nat} {view : σ → Bytes} (C : Readable impl h bpb view) :
    Lawful (frozen { backendOf impl h with flush := fun s _ _ => (s, some (.other 0)) }) bpb view where
  fetch_view s i buf := by show view (impl.readBlocks s h i buf).1 = _; rw [C.state]
  fetch_ok s i buf h1 h2 h3 := C.bytes s i buf h1 h2 h3
  flush_ok s i buf _ _ h := by cases h
  flush_fail s i buf _ _ _ := ⟨rfl, fun _ _ => rfl⟩
  resize_ok s n _ h := by cases h
  resize_fail s n _ := rfl

theorem read_congr {b b' : Backend σ} (h : b.fetch = b'.fetch) (x : Stream.Stm σ) (buf : Bytes) :
    Stream.read b x buf = Stream.read b' x buf := by
  have h1 : ∀ n i st, loadLoop b n i st = loadLoop b' n i st := by
    intro n
    induction n with
    | zero => intro i st; rfl
    | succ n ih => intro i st; rw [loadLoop, loadLoop]; simp only [ih, h]
  have h2 : getSlice b = getSlice b' := by
    funext st i n
    unfold getSlice loadBlockRange
    simp only [h1]
  unfold Stream.read Stream.readAt
  rw [h2]

theorem new_dirty {bpb total : Nat} {c : Cache} (h : BlockCache.new bpb total = .ret c) : ∀ j, c.dirty.getD j false = false := by
  unfold BlockCache.new at h
  split at h
  · cases h
    intro j
    show (List.replicate (bitmapLen total) false).getD j false = false
    rw [List.getD_eq_getElem?_getD, List.getElem?_replicate]
    split <;> rfl
  · cases h

/-- The object's contents, or the error of ReadBlocks; the state is as before. -/
theorem contents_spec (d : Drv σ H) (h : H) (p : Str) (s : σ) {bpb total : Nat} {view : σ → Bytes}
    (C : Readable d.impl h bpb view) (hs : StatFits d.impl s h bpb total view) :
    getContentsOfObject d ⟨some h, p⟩ s = .ret (s, .ok ((view s).take (d.impl.stat s h).size.toNat)) ∨
    ∃ j be, getContentsOfObject d ⟨some h, p⟩ s = .ret (s, .error (.ioFailed (.cache (.fetchFailed j be)))) ∧
      ∃ s' buf, (d.impl.readBlocks s' h j buf).2.2 = some be := by
  let b0 := frozen { backendOf d.impl h with flush := fun s _ _ => (s, some (.other 0)) }
  have L : Lawful b0 bpb view := lawful_read C
  have hcap : total * bpb ≤ maxInt := by have := hs.fits; omega
  have SS : Stream.Spec.StreamSetup b0 bpb total view s := ⟨⟨L, hs.bpb_pos, hcap, hs.store⟩, hs.bpb_le⟩
  have ht : total ≤ maxInt := Nat.le_trans (Nat.le_mul_of_pos_right _ hs.bpb_pos) hcap
  have hlt : ∀ n, n ≤ maxInt → n < 2 ^ 64 := fun n hn => by unfold maxInt at hn; omega
  obtain ⟨c, hc⟩ : ∃ c, BlockCache.new bpb total = .ret c := by
    unfold BlockCache.new
    rw [if_pos ⟨ht, by rw [Nat.mul_comm, u64_of_lt (hlt _ hcap)]; exact hcap⟩]
    exact ⟨_, rfl⟩
  have hct : c.totalBlocks = total := by
    unfold BlockCache.new at hc
    split at hc
    · cases hc; rfl
    · cases hc
  have hcb : c.bpb = bpb := by
    unfold BlockCache.new at hc
    split at hc
    · cases hc; rfl
    · cases hc
  have ha : Spec.After b0 bpb total s [] ⟨c, s⟩ [] := ⟨c, hc, by simp, rfl⟩
  have hbs : Stream.toUint (d.impl.stat s h).blockSize = bpb := by
    rw [hs.blockSize, Stream.toUint_nat (hlt _ hs.bpb_le)]
  have hnb : Stream.toUint (d.impl.stat s h).numBlocks = total := by
    rw [hs.numBlocks, Stream.toUint_nat (hlt _ ht)]
  obtain ⟨x, a, hx, hsz, hpos, hconf, hfile⟩ := Stream.C23_open SS ha (flags := Flags.O_RDONLY) (size := (d.impl.stat s h).size)
    (by decide) hs.size_nn (by rw [hct]; exact hs.size_le)
  have ha' : a = (view s).take (total * bpb) := hconf
  have hxe : x = ⟨(d.impl.stat s h).size, 0, ⟨c, s⟩, Flags.O_RDONLY⟩ := by
    unfold Stream.new at hx
    split at hx
    · simp only [Outcome.pure_eq] at hx; cases hx
    · simp only [show Flags.truncate Flags.O_RDONLY = false by decide] at hx
      cases hx; rfl
  have hnew : Stream.new (backendOf d.impl h) (d.impl.stat s h).size ⟨c, s⟩ Flags.O_RDONLY = .ret (some x, none) := by
    have e : Stream.new (backendOf d.impl h) (d.impl.stat s h).size ⟨c, s⟩ Flags.O_RDONLY
        = Stream.new b0 (d.impl.stat s h).size ⟨c, s⟩ Flags.O_RDONLY := by
      unfold Stream.new
      simp only [show Flags.truncate Flags.O_RDONLY = false by decide]
      rfl
    rw [e, hx]
  have hr : Stream.Spec.Reachable b0 bpb total s x := .opened ha hx
  have hcapx : Stream.Spec.capacity x = total * bpb := by
    rw [hxe]; show c.totalBlocks * c.bpb = _; rw [hct, hcb]
  let n := (d.impl.stat s h).size.toNat
  have hfit : Stream.Spec.FitsRead x (List.replicate n (0 : UInt8)).length := by
    rw [List.length_replicate]
    show Stream.Spec.capacity x + n ≤ maxInt
    rw [hcapx]; exact hs.fits
  obtain ⟨hlen, x', r, hread, _, _, _, hcase⟩ := Stream.C23_readAt SS hr (by rw [hxe]; show Flags.read Flags.O_RDONLY = true; decide) (List.replicate n 0) 0 hfit
  have hfilen : (Stream.Spec.file view x).length = n := by
    have : ((Stream.Spec.file view x).length : Int) = (d.impl.stat s h).size := by rw [hlen, hsz]
    have h0 := hs.size_nn
    show _ = (d.impl.stat s h).size.toNat
    omega
  have hfe : Stream.Spec.file view x = (view s).take n := by
    rw [hfile, ha', List.take_take]
    congr 1
    have := hs.size_le
    show min n (total * bpb) = n
    have h0 := hs.size_nn
    have : n ≤ total * bpb := by show (d.impl.stat s h).size.toNat ≤ _; omega
    omega
  -- Read
  have hq : ∀ s i buf, ((backendOf d.impl h).fetch s i buf).1 = s := C.state
  have hrc : Stream.read (backendOf d.impl h) x (List.replicate n 0) = Stream.read b0 x (List.replicate n 0) :=
    read_congr (b := backendOf d.impl h) (b' := b0) (show (backendOf d.impl h).fetch = b0.fetch from rfl) x (List.replicate n 0)
  have hrd : ∃ xr, Stream.read (backendOf d.impl h) x (List.replicate n 0) = .ret (xr, r) := by
    rw [hrc]
    unfold Stream.read
    have : x.position = ((0 : Nat) : Int) := by rw [hxe]; rfl
    rw [this, hread]
    simp only [Outcome.bind_ret]
    rcases r.err with _ | e
    · exact ⟨_, rfl⟩
    · exact ⟨_, rfl⟩
  obtain ⟨xr, hrd⟩ := hrd
  obtain ⟨hst, hdirty⟩ := read_quiet hq hrd
  have hclean : ∀ j, xr.st.c.dirty.getD j false = false := hdirty (by rw [hxe]; exact new_dirty hc)
  have hxs : x.st.s = s := by rw [hxe]
  -- Close
  have hcl : (∃ xc ec, Stream.sync (backendOf d.impl h) xr = .ret (xc, ec)) ∧ xr.flags = x.flags := by
    rw [sync_clean_congr _ b0 hclean]
    obtain ⟨_, xr', r', _, h2, h3, h5, _⟩ := Stream.read_effect L (Stream.reachable_inv SS hr) (List.replicate n 0) hfit
    rw [hrc, h2] at hrd
    cases hrd
    obtain ⟨xc, ec, h4, _⟩ := Stream.sync_spec L h3
    exact ⟨⟨xc, ec, h4⟩, h5.flags⟩
  obtain ⟨⟨xc, ec, hcl⟩, hflags⟩ := hcl
  have hcs := sync_clean hclean hcl
  -- put together
  have hfile1 : ∃ f : File H, newFile d ⟨some h, p⟩ Flags.O_RDONLY s = .ret (s, .ok f) ∧ f.objectHandle = ⟨some h, p⟩ ∧
      f.streamIn s = x := by
    refine ⟨{ size := x.size, position := x.position, cache := x.st.c, ioFlags := x.flags, objectHandle := ⟨some h, p⟩,
              fileInfoStat := d.impl.stat s h, fileInfoPath := p, lastReadDirResult := none, readDirResultPointer := 0 }, ?_, rfl, ?_⟩
    · unfold newFile
      rw [andThen_ok (a := d.impl.stat s h) (s' := s) rfl]
      simp only [Ext.method, hbs, hnb, hc, hnew]
      rw [hxs]
    · show Stream.Stm.mk x.size x.position ⟨x.st.c, s⟩ x.flags = x
      rw [← hxs]
  obtain ⟨f, hf1, hf2, hf3⟩ := hfile1
  unfold getContentsOfObject
  rw [either_ret hf1]
  simp only
  rw [andThen_ok (a := d.impl.stat s h) (s' := s) rfl, if_neg (by have := hs.size_nn; omega)]
  have hfr : f.read d (d.impl.stat s h).size.toNat s = .ret (s, .ok (f.after xr, r.buf, r.err)) := by
    unfold File.read
    rw [hf2]
    simp only [Ext.method, hf3]
    rw [show Stream.read (backendOf d.impl h) x (List.replicate (d.impl.stat s h).size.toNat 0) = .ret (xr, r) from hrd]
    simp only
    rw [hst, hxs]
  rw [andThen_ok hfr]
  simp only
  have hclose : ∃ q, M.andThen ((f.after xr).close d) (fun _ => M.ok ()) s = .ret (s, q) := by
    have hin : (f.after xr).streamIn s = xr := by
      have hfl : f.ioFlags = xr.flags := by rw [hflags, ← hf3]; rfl
      show Stream.Stm.mk xr.size xr.position ⟨xr.st.c, s⟩ f.ioFlags = _
      rw [hfl, ← hxs, ← hst]
    have hc1 : ∃ q, (f.after xr).close d s = .ret (s, q) := by
      unfold File.close
      rw [show (f.after xr).objectHandle = ⟨some h, p⟩ from hf2]
      simp only [Ext.method, hin, hcl]
      rw [hst, hxs] at hcs
      rcases ec with _ | e
      · exact ⟨_, by simp only [hcs]; rfl⟩
      · exact ⟨_, by simp only [hcs]; rfl⟩
    obtain ⟨q, hc1⟩ := hc1
    rcases q with e | q
    · exact ⟨_, andThen_err hc1⟩
    · exact ⟨_, andThen_ok hc1⟩
  obtain ⟨q, hclose⟩ := hclose
  rcases hcase with ⟨m, hm1, hm2, hbuf, he1, he2⟩ | ⟨j, be, hre, hff⟩
  · left
    have hmn : m = n := by rw [hm2, hfilen, List.length_replicate]; omega
    have hbe : r.buf = (view s).take n := by
      rw [hbuf, hmn, hfe, slice, List.drop_zero, List.take_take, Nat.min_self,
        List.drop_eq_nil_of_le (by rw [List.length_replicate]; exact Nat.le_refl _), List.append_nil]
    have her : r.err = none := by
      rcases he1 with h1 | h1
      · exact h1
      · have := (he2.mp h1).2
        rw [List.length_replicate] at this
        omega
    rw [her, hbe]
    unfold M.deferred
    rw [either_ret (r := .ok ((view s).take n)) (s' := s) rfl, either_ret hclose]
  · right
    refine ⟨j, be, ?_, hff.2⟩
    rw [hre]
    unfold M.deferred
    rw [either_ret (r := .error (.ioFailed (.cache (.fetchFailed j be)))) (s' := s) rfl, either_ret hclose]

end Disko.Driver
