import Verif.Grain.Json

/-!
# Event grain payloads

`mediagrains/grains/EventGrain.py` 178-324. The rest of the metadata is in `Verif.Grain.Meta`.
-/

namespace Verif.Event

open Verif Verif.Json

/-- A python string literal. -/
def lit (s : String) : Str := s.toList.map Char.toNat

/-- A python dictionary with string keys, in insertion order. -/
abbrev Datum := List (Str × J)

/-- `meta['grain']['event_payload']`. -/
structure Payload where
  type : J
  topic : J
  data : List Datum

inductive EErr where
  /-- `ValueError`, also `JSONDecodeError` and `UnicodeDecodeError`. -/
  | value
  | key
  | type
deriving DecidableEq, Repr

/-- `d.get(k)` -/
def lookup (d : Datum) (k : Str) : Option J := (d.find? (fun p => p.1 = k)).map Prod.snd

/-- `del d[k]` -/
def erase (d : Datum) (k : Str) : Datum := d.filter (fun p => p.1 ≠ k)

/-- `s.encode('utf-8')` (for text without surrogates). -/
def encodeText (s : Str) : Bytes := encodeUtf8 (s.map Char.ofNat)

/-- `b.decode('utf-8')` -/
def decodeText (b : Bytes) : Option Str := (decodeUtf8 b).map (fun s => s.map Char.toNat)

/-- The dictionary that the `data` property writes. -/
def payloadJson (p : Payload) : J :=
  .obj [(lit "type", p.type), (lit "topic", p.topic), (lit "data", .arr (p.data.map .obj))]

/-- The `data` property, lines 181-185. -/
def getData (p : Payload) : Bytes := encodeText (dumps (payloadJson p))

/-- What may be assigned to `data`. -/
inductive Arg where
  | str (s : Str)
  | bytes (b : Bytes)

/-- `k in s` for strings. -/
def substr (k : Str) : Str → Bool
  | [] => k.isPrefixOf []
  | c :: r => k.isPrefixOf (c :: r) || substr k r

/-- `k in payload` for what `json.loads` returns: keys of a dictionary, elements of a list, substrings of a string. -/
def contains (k : Str) : J → Except EErr Bool
  | .obj l => .ok (lookup l k).isSome
  | .arr l => .ok (l.any (fun x => match x with | .str s => decide (s = k) | _ => false))
  | .str s => .ok (substr k s)
  | _ => .error .type

/-- What `for datum in payload['data']` runs over. -/
def iterate : J → Except EErr (List J)
  | .arr l => .ok l
  | .obj l => .ok (l.map (fun p => .str p.1))
  | .str s => .ok (s.map (fun c => .str [c]))
  | _ => .error .type

/-- The new item for one item of the payload, lines 199-204. -/
def readDatum : J → Except EErr Datum
  | .obj d =>
    match lookup d (lit "path") with
    | none => .error .key
    | some path =>
      .ok ((lit "path", path) ::
        ((match lookup d (lit "pre") with | some v => [(lit "pre", v)] | none => []) ++
          (match lookup d (lit "post") with | some v => [(lit "post", v)] | none => [])))
  | _ => .error .type

/-- The loop of lines 198-205: items are appended until one is refused. -/
def readData (p : Payload) : List J → Payload × Except EErr Unit
  | [] => (p, .ok ())
  | x :: xs =>
    match readDatum x with
    | .error e => (p, .error e)
    | .ok d => readData { p with data := p.data ++ [d] } xs

/-- Lines 193-205, for the payload that was read: the state afterwards, and the exception if there is one. -/
def setPayload (p : Payload) (v : J) : Payload × Except EErr Unit :=
  match contains (lit "type") v with
  | .error e => (p, .error e)
  | .ok false => (p, .error .value)
  | .ok true =>
    match contains (lit "topic") v with
    | .error e => (p, .error e)
    | .ok false => (p, .error .value)
    | .ok true =>
      match contains (lit "data") v with
      | .error e => (p, .error e)
      | .ok false => (p, .error .value)
      | .ok true =>
        match v with
        | .obj l =>
          match lookup l (lit "type"), lookup l (lit "topic"), lookup l (lit "data") with
          | some t, some o, some d =>
            match iterate d with
            | .error e => (⟨t, o, []⟩, .error e)
            | .ok xs => readData ⟨t, o, []⟩ xs
          | _, _, _ => (p, .error .key)
        | _ => (p, .error .type)

/-- The setter of `data`, lines 187-205. -/
def setData (p : Payload) (a : Arg) : Payload × Except EErr Unit :=
  match (match a with | .str s => some s | .bytes b => decodeText b) with
  | none => (p, .error .value)
  | some s =>
    match loads s with
    | none => (p, .error .value)
    | some v => setPayload p v

/-- `append(path, pre, post)`, lines 317-324; `None` is `null`. -/
def append (p : Payload) (path pre post : J) : Payload :=
  { p with data := p.data ++ [(lit "path", path) ::
      ((match pre with | .null => [] | v => [(lit "pre", v)]) ++ (match post with | .null => [] | v => [(lit "post", v)]))] }

/-- The properties `pre` and `post` of an item, lines 281-300: `None` if absent. -/
def getOpt (d : Datum) (k : Str) : J := (lookup d k).getD .null

/-- The setter of `pre`, lines 288-293. -/
def setPre (d : Datum) (v : J) : Except EErr Datum :=
  match v with
  | .null => if (lookup d (lit "pre")).isSome then .ok (erase d (lit "pre")) else .error .key
  | v => .ok (dictSet d (lit "pre") v)

/-- The setter of `post`, lines 302-307. -/
def setPost (d : Datum) (v : J) : Except EErr Datum :=
  match v with
  | .null => if (lookup d (lit "post")).isSome then .ok (erase d (lit "post")) else .ok d
  | v => .ok (dictSet d (lit "post") v)

end Verif.Event
