import Verif.Stream.Fixed
import Verif.Stream.Props8
import Verif.BlockCache.Props2
/-! C146: streams over storage of a fixed size.  C139 and C145 for streams that cannot be written, or cannot be read. -/
namespace Disko.Stream
open Disko Disko.BlockCache Disko.BlockCache.Spec Disko.Stream.Spec Disko.Stream.Copying

variable {S : Type}

/-- C146 in full: over storage whose blocks can all be read and written, but whose size cannot be changed, a write inside the file writes everything, and after
a Sync that returned nil the storage holds it. -/
def C146_statement : Prop :=
  ∀ (S : Type) (b : Backend S) (bpb total : Nat) (view : S → Bytes) (s0 : S), StreamSetup b bpb total view s0 → FixedSize b view →
    (∀ s i buf, i < total → (b.fetch s i buf).2.2 = none) →
    (∀ s i buf, i < total → i * bpb + bpb ≤ (view s).length → buf.length = bpb → (b.flush s i buf).2 = none) →
    ∀ x y, Opened b bpb total s0 x → Steps b x y → Flags.write y.flags = true →
    ∀ buf off y' n e, WriteCall b y buf off y' n e → FitsWrite y buf.length off → off + buf.length ≤ y.size' →
      n = buf.length ∧ e = none ∧ ∀ y'', sync b y' = .ret (y'', none) → slice (view y''.st.s) off buf.length = buf

/-! ### What a stream over a slice does -/

theorem fixed_slice {bpb total : Nat} (hb : 0 < bpb) (hcap : total * bpb ≤ maxInt) : FixedSize (sliceBackend bpb total) SliceStream.storage :=
  ⟨fun _ _ => by simp [sliceBackend, wrapRWS], fun _ _ => rfl, fun s i buf => (slice_fetch (i := i) hb hcap s buf).1⟩

/-- Storage behind a cache that was created with nil for the resize callback. -/
theorem fixed_nil {b : Backend S} {bpb : Nat} {view : S → Bytes} (L : Lawful b bpb view) (hr : b.resize = nilResize) : FixedSize b view :=
  ⟨fun _ _ => by rw [hr]; simp [nilResize], fun _ _ => by rw [hr]; rfl, fun s i buf => L.fetch_view s i buf⟩

/-- A stream of 6 bytes over WrapSlice([]byte{1, 2, 3, 4, 5, 6}, 2). -/
def sliceStream : Stm SliceStream := ⟨6, 0, ⟨exampleCache, ⟨[1, 2, 3, 4, 5, 6], 0⟩⟩, Flags.O_RDWR⟩

theorem sliceOpened : Opened (sliceBackend 2 3) 2 3 ⟨[1, 2, 3, 4, 5, 6], 0⟩ sliceStream :=
  ⟨⟨exampleCache, ⟨[1, 2, 3, 4, 5, 6], 0⟩⟩, 6, Flags.O_RDWR, none, ⟨exampleCache, by decide +kernel, by simp, rfl⟩, by decide +kernel⟩

theorem sliceSetup : StreamSetup (sliceBackend 2 3) 2 3 SliceStream.storage ⟨[1, 2, 3, 4, 5, 6], 0⟩ :=
  ⟨wrapSlice_setup (storage := [1, 2, 3, 4, 5, 6]) (bpb := 2) (by omega) (by decide +kernel), by decide +kernel⟩

/-- Writing 9 over the first byte of that slice succeeds, Sync returns nil, and the slice is what it was.  (Writing over its last byte fails.) -/
theorem C146_refuted : ¬ C146_statement := by
  intro h
  obtain ⟨y', hw, hv⟩ := ret_of (o := writeAt (sliceBackend 2 3) sliceStream [9] 0) (fun y => (sync (sliceBackend 2 3) y).bind fun p => .ret (p.1.st.s.storage, p.2))
    (r := (1, none)) (v := .ret ([1, 2, 3, 4, 5, 6], none)) (by decide +kernel)
  obtain ⟨y'', hs, hv2⟩ := ret_of (o := sync (sliceBackend 2 3) y') (fun y => y.st.s.storage) hv
  have hcap : 3 * 2 ≤ maxInt := by decide +kernel
  have := (h _ _ _ _ _ _ sliceSetup (fixed_slice (by omega) hcap) (fun s i buf hi => (slice_fetch (by omega) hcap s buf).2.2.2 hi)
    (fun s i buf hi h1 h2 => by rw [(slice_flush (by omega) hcap s buf h1 h2).1, if_pos hi]) _ _ sliceOpened (.refl _) (by decide +kernel) [9] 0 y' 1 none
    (.writeAt (by decide +kernel) hw) (by decide +kernel) (by decide +kernel)).2.2 y'' hs
  rw [hv2] at this
  revert this
  decide +kernel

/-- The last byte: refused, because the object would have to grow. -/
example : (writeAt (sliceBackend 2 3) sliceStream [9] 5).bind (fun p => .ret p.2) = .ret (0, some (.cache (.resizeFailed .notPermitted))) := by decide +kernel

/-! ### Nothing ever changes -/

/-- C146, whatever is done: over storage of a fixed size, the storage, the size of the file and the number of blocks stay as they were when the stream was opened,
after any calls with any arguments.  Nothing is assumed of the storage, except that its size cannot be changed. -/
theorem C146_kept_partial {V : Type} {b : Backend S} {view : S → V} (F : FixedSize b view) {bpb total : Nat} {s0 : S} {x x' : Stm S}
    (ho : Opened b bpb total s0 x) (hc : Calls b x x') :
    view x'.st.s = view s0 ∧ x'.size' = x.size' ∧ x'.st.c.totalBlocks = total := by
  obtain ⟨h1, h2, h3, h4⟩ := opened_kept F ho
  have k := calls_kept F h4 hc
  exact ⟨k.view.trans h1, k.size, k.blocks.trans h2⟩

/-- C146: the flush callback is never called. -/
theorem C146_never_partial {b : Backend S} (hr : ∀ s n, (b.resize s n).2 ≠ none) {bpb total : Nat} {s0 : S} {x x' : Stm (S × List Event)}
    (ho : Opened (logged b) bpb total (s0, []) x) (hc : Calls (logged b) x x') (i : Nat) (buf : Bytes) (ok : Bool) : Event.flush i buf ok ∉ x'.st.s.2 := by
  have F : FixedSize (logged b) (fun s : S × List Event => s.2.filter fun e => match e with | .flush _ _ _ => true | _ => false) :=
    ⟨fun s n => hr s.1 n, fun s n => by simp [logged], fun s i buf => by simp [logged]⟩
  have := (C146_kept_partial F ho hc).1
  intro hm
  have hm2 : Event.flush i buf ok ∈ x'.st.s.2.filter fun e => match e with | .flush _ _ _ => true | _ => false := List.mem_filter.2 ⟨hm, rfl⟩
  rw [this] at hm2
  cases hm2

/-- C146: Truncate never returns nil, whatever the size (not even for the size the file has), and neither does New with O_TRUNC. -/
theorem C146_truncate_partial {V : Type} {b : Backend S} {view : S → V} (F : FixedSize b view) {bpb total : Nat} {s0 : S} {x x' : Stm S}
    (ho : Opened b bpb total s0 x) (hc : Calls b x x') {n : Int} {x'' : Stm S} {e : Option SErr} (ht : truncate b x' n = .ret (x'', e)) : e ≠ none :=
  (truncate_kept F (calls_kept F (opened_kept F ho).2.2.2 hc).clean n _ ht).2

theorem C146_new_partial {V : Type} {b : Backend S} {view : S → V} (F : FixedSize b view) {bpb total : Nat} {s0 : S} {c : Cache} (hn : BlockCache.new bpb total = .ret c)
    {size : Int} {flags : Flags.IOFlags} (hf : Flags.truncate flags = true) {x : Option (Stm S)} {e : Option SErr}
    (h : Stream.new b size ⟨c, s0⟩ flags = .ret (x, e)) : e ≠ none := by
  unfold new at h
  split at h
  · cases h; simp
  · simp only [hf, if_true] at h
    rcases ht : truncate b { size, position := 0, st := ⟨c, s0⟩, flags } 0 with ⟨x', e'⟩ | _ | _
    · rw [ht] at h
      cases h
      exact (truncate_kept F (x := { size, position := 0, st := ⟨c, s0⟩, flags }) (new_clean hn).1 0 _ ht).2
    · rw [ht] at h; cases h
    · rw [ht] at h; cases h

/-! ### Writes, exactly -/

theorem steps_calls {b : Backend S} {x y : Stm S} (h : Steps b x y) : Calls b x y := by
  induction h with
  | refl => exact .start _
  | call _ _ h ih => exact .call ih h

theorem steps_inv {b : Backend S} {bpb : Nat} {view : S → Bytes} (L : Lawful b bpb view) {x y : Stm S} (h : Inv bpb view x) (hs : Steps b x y) : Inv bpb view y := by
  induction hs with
  | refl => exact h
  | call _ hf hst ih =>
    rcases step_inv L ih _ hf with t | ⟨x3, t1, t2, _⟩
    · rw [hst] at t; simp at t
    · rw [hst] at t1; cases t1; exact t2

/-- C146, exactly: over storage of a fixed size whose blocks can be read, a write of `n` bytes at `off` succeeds if and only if `off / bpb + (off + n) / bpb`
is less than the number of blocks; then the file (as read through this stream) has the new bytes, as far as it goes, and otherwise nothing is written.
Missing: that every write inside the file succeeds and reaches the storage, which is false (`C146_refuted`, `C146_kept_partial`). -/
theorem C146_write_partial {b : Backend S} {bpb total : Nat} {view : S → Bytes} {s0 : S} (H : StreamSetup b bpb total view s0) (F : FixedSize b view)
    (hfetch : ∀ s i buf, i < total → (b.fetch s i buf).2.2 = none) {x y y' : Stm S} (ho : Opened b bpb total s0 x) (hs : Steps b x y)
    (hw : Flags.write y.flags = true) {buf : Bytes} {off : Nat} {n : Int} {e : Option SErr} (hc : WriteCall b y buf off y' n e) (hf : FitsWrite y buf.length off) :
    (off / bpb + (off + buf.length) / bpb < total ∧ n = buf.length ∧ e = none ∧
      ∀ k, k < y.size'.toNat → (file view y')[k]? = if off ≤ k ∧ k < off + buf.length then buf[k - off]? else (file view y)[k]?) ∨
    (total ≤ off / bpb + (off + buf.length) / bpb ∧ n = 0 ∧ e ≠ none ∧ file view y' = file view y) := by
  have hcl := opened_kept F ho
  have hk := calls_kept F hcl.2.2.2 (steps_calls hs)
  have hi := steps_inv H.cache.lawful (opened_clean H ho).1 hs
  have ht : y.st.c.total = total := hk.blocks.trans hcl.2.1
  have hy : Kept view y y' := by
    cases hc with
    | writeAt ha h =>
      unfold writeAt at h
      rw [ha, if_neg Bool.false_ne_true] at h
      exact implWriteAt_kept F hk.clean buf off _ h
    | write hoff h => exact write_kept F hk.clean buf _ h
  obtain ⟨y0, z, hst, hfl, hi0, h0, hz⟩ : ∃ y0 z, y0.st = y.st ∧ y0.flags = y.flags ∧ Inv bpb view y0 ∧
      implWriteAt b y0 buf off = .ret (z, n, e) ∧ z.st = y'.st := by
    cases hc with
    | writeAt ha h =>
      unfold writeAt at h
      rw [ha, if_neg Bool.false_ne_true] at h
      exact ⟨y, y', rfl, rfl, hi, h, rfl⟩
    | write hoff h =>
      rw [write_eq hi buf hw, hoff] at h
      rcases h1 : implWriteAt b { y with position := (off : Int) } buf off with ⟨z, n1, e1⟩ | _ | _
      · rw [h1] at h
        cases h
        exact ⟨{ y with position := (off : Int) }, z, rfl, rfl, ⟨hi.weak, hi.bpb, hi.bpb_le, hi.size_nn, hi.size_le, Int.natCast_nonneg _, lt_of_maxInt hf.1⟩, h1, rfl⟩
      · rw [h1] at h; cases h
      · rw [h1] at h; cases h
  have hsz : y'.size = y.size := hy.size
  obtain ⟨z2, n2, e2, w1, w2, w3⟩ := implWriteAt_fixed H.cache.lawful F hfetch hi0 (by rw [hst]; exact hk.clean) (by rw [hst]; exact ht)
    (by rw [hfl]; exact hw) buf off (by unfold FitsWrite FitsSize capacity at hf ⊢; rw [hst]; exact hf)
  rw [h0] at w1
  cases w1
  rw [hst, hz] at w3
  rcases w3 with ⟨c1, rfl, rfl, c2⟩ | ⟨c1, rfl, c3, c2⟩
  · refine .inl ⟨c1, rfl, rfl, fun k hk2 => ?_⟩
    have hend : off + buf.length ≤ (contents view y.st).length := by
      rw [length_contents, ht, hi.bpb]
      apply Nat.le_of_lt
      rw [← Nat.div_lt_iff_lt_mul H.cache.bpb_pos]
      exact Nat.lt_of_lt_of_le (Nat.lt_succ_of_le (Nat.le_add_left _ _)) c1
    have hk3 : k < y.size.toNat := hk2
    unfold file
    rw [hsz, List.getElem?_take_of_lt hk3, List.getElem?_take_of_lt hk3, c2, getElem?_splice (by omega)]
    split
    · rw [if_neg (by omega)]
    · split
      · rw [if_pos (by omega)]
      · rw [if_neg (by omega)]
  · refine .inr ⟨by omega, rfl, c3, ?_⟩
    unfold file
    rw [hsz, c2]

/-- C146: what ends at the end of the storage can never be written - its last byte, or the whole of it. -/
theorem C146_last_partial {b : Backend S} {bpb total : Nat} {view : S → Bytes} {s0 : S} (H : StreamSetup b bpb total view s0) (F : FixedSize b view)
    (hfetch : ∀ s i buf, i < total → (b.fetch s i buf).2.2 = none) {x y y' : Stm S} (ho : Opened b bpb total s0 x) (hs : Steps b x y)
    (hw : Flags.write y.flags = true) {buf : Bytes} {off : Nat} {n : Int} {e : Option SErr} (hc : WriteCall b y buf off y' n e) (hf : FitsWrite y buf.length off)
    (hend : off + buf.length = total * bpb) : n = 0 ∧ e ≠ none ∧ file view y' = file view y := by
  rcases C146_write_partial H F hfetch ho hs hw hc hf with ⟨h, _⟩ | ⟨_, h⟩
  · rw [hend, Nat.mul_div_cancel _ H.cache.bpb_pos] at h
    exact absurd h (Nat.not_lt.2 (Nat.le_add_left _ _))
  · exact h

/-- Writing inside the first block, and what is read back. -/
example : Steps (sliceBackend 2 3) sliceStream sliceStream ∧ Flags.write sliceStream.flags = true ∧ FitsWrite sliceStream [8, 9].length 1 ∧
    (writeAt (sliceBackend 2 3) sliceStream [8, 9] 1).bind (fun p => .ret (file SliceStream.storage p.1, p.1.st.s.storage, p.2)) =
      .ret ([1, 8, 9, 4, 5, 6], [1, 2, 3, 4, 5, 6], 2, none) := ⟨.refl _, by decide +kernel, by decide +kernel, by decide +kernel⟩

/-! ### WrapSlice -/

/-- C146 for WrapSlice: a stream over the cache it returns never changes the slice, whatever is done with it; no Truncate returns nil; a write that ends at the
end of the slice's last whole block is refused. -/
theorem C146_slice_partial {storage : Bytes} {bpb total : Nat} {st : St SliceStream} (hlen : storage.length ≤ maxInt) (hb : bpb ≤ maxInt)
    (hwrap : wrapSlice storage bpb = .ret (total, st)) {size : Int} {flags : Flags.IOFlags} {e0 : Option SErr} {x x' : Stm SliceStream}
    (hn : Stream.new (sliceBackend bpb total) size st flags = .ret (some x, e0)) :
    (Calls (sliceBackend bpb total) x x' → x'.st.s.storage = storage ∧ x'.size' = size ∧
      ∀ n y e, truncate (sliceBackend bpb total) x' n = .ret (y, e) → e ≠ none) ∧
    (Steps (sliceBackend bpb total) x x' → Flags.write x'.flags = true → ∀ buf off y n e, WriteCall (sliceBackend bpb total) x' buf off y n e →
      FitsWrite x' buf.length off → off + buf.length = storage.length / bpb * bpb → n = 0 ∧ e ≠ none) := by
  have ha : AfterSlice storage bpb [] st [] := ⟨total, st, hwrap, by simp, rfl⟩
  have h2 := ha.after
  have ht : total = storage.length / bpb ∧ 0 < bpb := by
    unfold wrapSlice at hwrap
    split at hwrap
    · cases hwrap
    · rcases hn : BlockCache.new bpb (storage.length / bpb) with c | _ | _
      · rw [hn] at hwrap; cases hwrap; exact ⟨rfl, by omega⟩
      · rw [hn] at hwrap; cases hwrap
      · rw [hn] at hwrap; cases hwrap
  obtain ⟨rfl, hpos⟩ := ht
  have H : StreamSetup (sliceBackend bpb (storage.length / bpb)) bpb (storage.length / bpb) SliceStream.storage ⟨storage, 0⟩ := ⟨wrapSlice_setup hpos hlen, hb⟩
  have F := fixed_slice hpos H.cache.cap
  have ho : Opened (sliceBackend bpb (storage.length / bpb)) bpb (storage.length / bpb) ⟨storage, 0⟩ x := ⟨st, size, flags, e0, h2, hn⟩
  have hsize : x.size' = size := by
    obtain ⟨c, hnew, _, hr⟩ := h2
    cases hr
    unfold new at hn
    split at hn
    · cases hn
    · simp only at hn
      split at hn
      · rcases ht : truncate (sliceBackend bpb (storage.length / bpb)) { size, position := 0, st := ⟨c, ⟨storage, 0⟩⟩, flags } 0 with ⟨x', e'⟩ | _ | _
        · rw [ht] at hn
          cases hn
          exact (truncate_kept F (x := { size, position := 0, st := ⟨c, ⟨storage, 0⟩⟩, flags }) (new_clean hnew).1 0 _ ht).1.size
        · rw [ht] at hn; cases hn
        · rw [ht] at hn; cases hn
      · cases hn
        rfl
  refine ⟨fun hc => ?_, fun hs hw buf off y n e hc hf hend => ?_⟩
  · obtain ⟨k1, k2, _⟩ := C146_kept_partial F ho hc
    exact ⟨k1, k2.trans hsize, fun n y e ht => C146_truncate_partial F ho hc ht⟩
  · have := C146_last_partial H F (fun s i buf hi => (slice_fetch hpos H.cache.cap s buf).2.2.2 hi) ho hs hw hc hf hend
    exact ⟨this.1, this.2.1⟩

/-- Such a stream, and a history of it: a write, a refused Truncate, a Sync. -/
example : wrapSlice [1, 2, 3, 4, 5, 6] 2 = .ret (3, sliceStream.st) ∧
    Stream.new (sliceBackend 2 3) 6 sliceStream.st Flags.O_RDWR = .ret (some sliceStream, none) ∧
    ∃ y z w, Calls (sliceBackend 2 3) sliceStream w ∧ stepCall (sliceBackend 2 3) sliceStream (.write [7, 8]) = .ret y ∧
      stepCall (sliceBackend 2 3) y (.truncate 2) = .ret z ∧ stepCall (sliceBackend 2 3) z .sync = .ret w ∧
      file SliceStream.storage w = [7, 8, 3, 4, 5, 6] ∧ w.st.s.storage = [1, 2, 3, 4, 5, 6] := by
  refine ⟨by decide +kernel, by decide +kernel, ?_⟩
  let next (x : Stm SliceStream) (c : Call) : Stm SliceStream := match stepCall (sliceBackend 2 3) x c with | .ret y => y | _ => x
  let y := next sliceStream (.write [7, 8])
  let z := next y (.truncate 2)
  let w := next z .sync
  have h1 : stepCall (sliceBackend 2 3) sliceStream (.write [7, 8]) = .ret y := by decide +kernel
  have h2 : stepCall (sliceBackend 2 3) y (.truncate 2) = .ret z := by decide +kernel
  have h3 : stepCall (sliceBackend 2 3) z .sync = .ret w := by decide +kernel
  exact ⟨y, z, w, (((Calls.start _).call h1).call h2).call h3, h1, h2, h3, by decide +kernel, by decide +kernel⟩

/-- A cache created with nil for the resize callback: the hypotheses are met too. -/
example : FixedSize { steady 2 with resize := nilResize } (fun s => s) ∧
    Opened { steady 2 with resize := nilResize } 2 3 [1, 2, 3, 4, 5, 6] (okStream 6 Flags.O_RDWR) :=
  ⟨⟨fun _ _ => by simp [nilResize], fun _ _ => rfl, fun _ _ _ => rfl⟩,
    ⟨⟨exampleCache, [1, 2, 3, 4, 5, 6]⟩, 6, Flags.O_RDWR, none, ⟨exampleCache, by decide +kernel, by simp, rfl⟩, by decide +kernel⟩⟩

/-! ### C139 and C145: streams that cannot be written or read -/

variable {T : Type}

theorem sent_readonly (b : Backend T) {y : Stm T} (hw : Flags.write y.flags = false) : ∀ cs, sent b y cs = .ret y
  | [] => rfl
  | c :: cs => by
    have : write b y c = .ret (y, 0, some .notPermitted) := by unfold write; rw [hw]; rfl
    simp only [sent]
    rw [this]
    exact sent_readonly b hw cs

/-- C139, a destination that was not opened for writing: WriteTo (and io.Copy) returns the full count and nil, although nothing was written; ReadFrom refuses,
and reads nothing.  Missing: that WriteTo returns an error. -/
theorem C139_readonly_partial {b : Backend S} {bd : Backend T} {bpb total : Nat} {view : S → Bytes} {s0 : S}
    (H : StreamSetup b bpb total view s0) (R : AllReliable b) {x : Stm S} {y : Stm T} (hx : Reachable b bpb total s0 x)
    (hread : Flags.read x.flags = true) (hwrite : Flags.write y.flags = false) (hfx : FitsRead x bpb) (fuel : Nat)
    (hfuel : (rest view x).length / bpb < fuel) :
    (∃ x', copyTo b bd fuel x y = .ret (x', y, ((rest view x).length : Int), none) ∧ file view x' = file view x) ∧
    copyFrom b bd fuel y x = .ret (y, x, 0, some .notPermitted) := by
  have ix := reachable_inv H hx
  have hl := rest_lt ix
  have hd : (file view x).drop x.position.toNat = rest view x := rfl
  have hbuf : (List.replicate x.st.c.bpb (0 : UInt8)).length = bpb := by rw [List.length_replicate, ix.bpb]
  obtain ⟨x', _, k2, _, k4⟩ := copyLoop_ok H.cache.lawful R bd _ fuel _ x 0 ix hread hbuf hfx (by rw [hd]; exact hfuel) rfl (by omega)
    (by rw [hd]; omega)
  refine ⟨⟨x', ?_, k2.file⟩, ?_⟩
  · unfold copyTo
    rw [k4 y, sent_readonly bd hwrite, hd, Int.zero_add]
    rfl
  · unfold copyFrom
    rw [hwrite]
    rfl

/-- Five bytes "copied" to a stream opened with O_RDONLY. -/
example : (copyTo (steady 2) (steady 2) 9 (okStream 5 Flags.O_RDWR) (okStream 6 Flags.O_RDONLY)).bind
      (fun p => .ret (file (fun s => s) p.2.1, p.2.2)) = .ret ([1, 2, 3, 4, 5, 6], 5, none) ∧ Flags.write (okStream 6 Flags.O_RDONLY).flags = false := by
  decide +kernel

/-- C139, a source that was not opened for reading: both ways return 0 and an error, whatever the storage does; WriteTo leaves both streams alone, and ReadFrom
has written no bytes (it calls Write with an empty buffer once). -/
theorem C139_unreadable_partial {b : Backend S} {bd : Backend T} {x : Stm S} {y : Stm T} (hread : Flags.read x.flags = false) (fuel : Nat) :
    copyTo b bd (fuel + 1) x y = .ret (x, y, 0, some .notPermitted) ∧
    (Flags.write y.flags = true → copyFrom b bd (fuel + 1) y x = (write bd y []).bind fun w => .ret (w.1, x, 0, some .notPermitted)) := by
  have hr : ∀ buf, read b x buf = .ret (x, ⟨buf, 0, some .notPermitted⟩) := fun buf => by unfold read readAt; rw [hread]; rfl
  refine ⟨?_, fun hw => ?_⟩
  · unfold copyTo copyLoop
    rw [hr]
    rfl
  · unfold copyFrom copyFromLoop
    rw [hr, hw]
    simp only [Bool.not_true, Bool.false_eq_true, if_false, Outcome.bind_ret, Int.toNat_zero, List.take_zero]
    rcases write bd y [] with w | _ | _ <;> rfl

example : copyTo (steady 2) (steady 2) 1 (okStream 5 Flags.O_WRONLY) (okStream 6 Flags.O_RDWR) =
      .ret (okStream 5 Flags.O_WRONLY, okStream 6 Flags.O_RDWR, 0, some .notPermitted) ∧
    (copyFrom (steady 2) (steady 2) 1 (okStream 6 Flags.O_RDWR) (okStream 5 Flags.O_WRONLY)).bind
      (fun p => .ret (file (fun s => s) p.1, p.2.2)) = .ret ([1, 2, 3, 4, 5, 6], 0, some .notPermitted) := by decide +kernel

/-- C145, streams opened only for reading or only for writing: `f.ReadFrom(f)` and `f.WriteTo(f)` return 0 and an error at once where they need what is not
permitted. -/
theorem C145_refused_partial {b : Backend S} {x : Stm S} (fuel : Nat) :
    (Flags.write x.flags = false → selfFrom b fuel x = .ret (x, 0, some .notPermitted)) ∧
    (Flags.read x.flags = false → selfTo b (fuel + 1) x = .ret (x, 0, some .notPermitted)) := by
  refine ⟨fun hw => ?_, fun hread => ?_⟩
  · unfold selfFrom
    rw [hw]
    rfl
  · have hr : ∀ buf, read b x buf = .ret (x, ⟨buf, 0, some .notPermitted⟩) := fun buf => by unfold read readAt; rw [hread]; rfl
    unfold selfTo selfToLoop
    rw [hr]
    rfl

example : Flags.write (okStream 6 Flags.O_RDONLY).flags = false ∧ Flags.read (okStream 6 Flags.O_WRONLY).flags = false := by decide +kernel

end Disko.Stream
