import Verif.Model.Basic

/-! Model of runtime/lib/compression_mgr.c and runtime/lib/cache.h. -/
namespace Verif

/-- COMPRESSION_ZSTD and COMPRESSION_LZ4, runtime/lib/compression.h:18-23. -/
inductive Codec where
  | zstd
  | lz4
deriving Repr, DecidableEq

/-- `struct Compression`, compression.h:34-38: a context knows its codec
(`iface->id`); `serial` tells contexts apart (the address in C). -/
structure Context where
  codec : Codec
  serial : Nat
deriving Repr, DecidableEq

/-- `struct CompressionMgr`, runtime/lib/compression_mgr.h:18-22; a `Cache`
(runtime/lib/cache.h:18-23) is its list.  The spinlock makes each call atomic.
`created` counts compression_create calls. -/
structure CodecMgr where
  zstd : List Context
  lz4 : List Context
  created : Nat
deriving Repr, DecidableEq

namespace CodecMgr

/-- compression_mgr_init, compression_mgr.c:18-23. -/
def init : CodecMgr := ⟨[], [], 0⟩

/-- compression_mgr_pop, compression_mgr.c:40-58, with cache_pop
(cache.h:49-62) and list_pop (runtime/runtime/list.h:68-74: the first). -/
def pop (m : CodecMgr) : Codec → Context × CodecMgr
  | .zstd =>
    match m.zstd with
    | c :: cs => (c, { m with zstd := cs })
    | [] => (⟨.zstd, m.created⟩, { m with created := m.created + 1 })
  | .lz4 =>
    match m.lz4 with
    | c :: cs => (c, { m with lz4 := cs })
    | [] => (⟨.lz4, m.created⟩, { m with created := m.created + 1 })

/-- compression_mgr_push, compression_mgr.c:60-74, with cache_push
(cache.h:64-71, list_append).  Both branches use `cache_zstd`. -/
def push (m : CodecMgr) (c : Context) : CodecMgr :=
  match c.codec with
  | .zstd => { m with zstd := m.zstd ++ [c] }
  | .lz4 => { m with zstd := m.zstd ++ [c] }

end CodecMgr
end Verif
