import Verif.Octets.Model

/-!
The static tables of QPACK (`/repo/quiche/src/h3/qpack/static_table.rs`), transcribed
literally; strings are lists of bytes.
-/

namespace Verif.Qpack
open Verif

/-- `STATIC_ENCODE_TABLE` (h3/qpack/static_table.rs:34-212): by length of the name, the
names, and for each the values with their indices. -/
def encodeTable : List (List (Bytes × List (Bytes × Nat))) := [
  -- 0
  [],
  -- 1
  [],
  -- 2
  [],
  -- 3: age
  [
    ([97, 103, 101], [([48], 2)])],
  -- 4: etag, date, link, vary
  [
    ([101, 116, 97, 103], [([], 7)]),
    ([100, 97, 116, 101], [([], 6)]),
    ([108, 105, 110, 107], [([], 11)]),
    ([118, 97, 114, 121], [([97, 99, 99, 101, 112, 116, 45, 101, 110, 99, 111, 100, 105, 110,
      103], 59), ([111, 114, 105, 103, 105, 110], 60)])],
  -- 5: range, :path
  [
    ([114, 97, 110, 103, 101], [([98, 121, 116, 101, 115, 61, 48, 45], 55)]),
    ([58, 112, 97, 116, 104], [([47], 1)])],
  -- 6: cookie, origin, server, accept
  [
    ([99, 111, 111, 107, 105, 101], [([], 5)]),
    ([111, 114, 105, 103, 105, 110], [([], 90)]),
    ([115, 101, 114, 118, 101, 114], [([], 92)]),
    ([97, 99, 99, 101, 112, 116], [([42, 47, 42], 29), ([97, 112, 112, 108, 105, 99, 97, 116,
      105, 111, 110, 47, 100, 110, 115, 45, 109, 101, 115, 115, 97, 103, 101], 30)])],
  -- 7: purpose, referer, alt-svc, :status, :scheme, :method
  [
    ([112, 117, 114, 112, 111, 115, 101], [([112, 114, 101, 102, 101, 116, 99, 104], 91)]),
    ([114, 101, 102, 101, 114, 101, 114], [([], 13)]),
    ([97, 108, 116, 45, 115, 118, 99], [([99, 108, 101, 97, 114], 83)]),
    ([58, 115, 116, 97, 116, 117, 115], [([49, 48, 51], 24), ([50, 48, 48], 25), ([51, 48, 52],
      26), ([52, 48, 52], 27), ([53, 48, 51], 28), ([49, 48, 48], 63), ([50, 48, 52], 64),
      ([50, 48, 54], 65), ([51, 48, 50], 66), ([52, 48, 48], 67), ([52, 48, 51], 68), ([52, 50,
      49], 69), ([52, 50, 53], 70), ([53, 48, 48], 71)]),
    ([58, 115, 99, 104, 101, 109, 101], [([104, 116, 116, 112], 22), ([104, 116, 116, 112,
      115], 23)]),
    ([58, 109, 101, 116, 104, 111, 100], [([67, 79, 78, 78, 69, 67, 84], 15), ([68, 69, 76, 69,
      84, 69], 16), ([71, 69, 84], 17), ([72, 69, 65, 68], 18), ([79, 80, 84, 73, 79, 78, 83],
      19), ([80, 79, 83, 84], 20), ([80, 85, 84], 21)])],
  -- 8: location, if-range
  [
    ([108, 111, 99, 97, 116, 105, 111, 110], [([], 12)]),
    ([105, 102, 45, 114, 97, 110, 103, 101], [([], 89)])],
  -- 9: expect-ct, forwarded
  [
    ([101, 120, 112, 101, 99, 116, 45, 99, 116], [([], 87)]),
    ([102, 111, 114, 119, 97, 114, 100, 101, 100], [([], 88)])],
  -- 10: user-agent, :authority, set-cookie, early-data
  [
    ([117, 115, 101, 114, 45, 97, 103, 101, 110, 116], [([], 95)]),
    ([58, 97, 117, 116, 104, 111, 114, 105, 116, 121], [([], 0)]),
    ([115, 101, 116, 45, 99, 111, 111, 107, 105, 101], [([], 14)]),
    ([101, 97, 114, 108, 121, 45, 100, 97, 116, 97], [([49], 86)])],
  -- 11
  [],
  -- 12: content-type
  [
    ([99, 111, 110, 116, 101, 110, 116, 45, 116, 121, 112, 101], [([97, 112, 112, 108, 105, 99,
      97, 116, 105, 111, 110, 47, 100, 110, 115, 45, 109, 101, 115, 115, 97, 103, 101], 44),
      ([97, 112, 112, 108, 105, 99, 97, 116, 105, 111, 110, 47, 106, 97, 118, 97, 115, 99, 114,
      105, 112, 116], 45), ([97, 112, 112, 108, 105, 99, 97, 116, 105, 111, 110, 47, 106, 115,
      111, 110], 46), ([97, 112, 112, 108, 105, 99, 97, 116, 105, 111, 110, 47, 120, 45, 119,
      119, 119, 45, 102, 111, 114, 109, 45, 117, 114, 108, 101, 110, 99, 111, 100, 101, 100],
      47), ([105, 109, 97, 103, 101, 47, 103, 105, 102], 48), ([105, 109, 97, 103, 101, 47,
      106, 112, 101, 103], 49), ([105, 109, 97, 103, 101, 47, 112, 110, 103], 50), ([116, 101,
      120, 116, 47, 99, 115, 115], 51), ([116, 101, 120, 116, 47, 104, 116, 109, 108, 59, 32,
      99, 104, 97, 114, 115, 101, 116, 61, 117, 116, 102, 45, 56], 52), ([116, 101, 120, 116,
      47, 112, 108, 97, 105, 110], 53), ([116, 101, 120, 116, 47, 112, 108, 97, 105, 110, 59,
      99, 104, 97, 114, 115, 101, 116, 61, 117, 116, 102, 45, 56], 54)])],
  -- 13: last-modified, accept-ranges, authorization, if-none-match, cache-control
  [
    ([108, 97, 115, 116, 45, 109, 111, 100, 105, 102, 105, 101, 100], [([], 10)]),
    ([97, 99, 99, 101, 112, 116, 45, 114, 97, 110, 103, 101, 115], [([98, 121, 116, 101, 115],
      32)]),
    ([97, 117, 116, 104, 111, 114, 105, 122, 97, 116, 105, 111, 110], [([], 84)]),
    ([105, 102, 45, 110, 111, 110, 101, 45, 109, 97, 116, 99, 104], [([], 9)]),
    ([99, 97, 99, 104, 101, 45, 99, 111, 110, 116, 114, 111, 108], [([109, 97, 120, 45, 97,
      103, 101, 61, 48], 36), ([109, 97, 120, 45, 97, 103, 101, 61, 50, 53, 57, 50, 48, 48,
      48], 37), ([109, 97, 120, 45, 97, 103, 101, 61, 54, 48, 52, 56, 48, 48], 38), ([110, 111,
      45, 99, 97, 99, 104, 101], 39), ([110, 111, 45, 115, 116, 111, 114, 101], 40), ([112,
      117, 98, 108, 105, 99, 44, 32, 109, 97, 120, 45, 97, 103, 101, 61, 51, 49, 53, 51, 54,
      48, 48, 48], 41)])],
  -- 14: content-length
  [
    ([99, 111, 110, 116, 101, 110, 116, 45, 108, 101, 110, 103, 116, 104], [([48], 4)])],
  -- 15: accept-encoding, x-forwarded-for, accept-language, x-frame-options
  [
    ([97, 99, 99, 101, 112, 116, 45, 101, 110, 99, 111, 100, 105, 110, 103], [([103, 122, 105,
      112, 44, 32, 100, 101, 102, 108, 97, 116, 101, 44, 32, 98, 114], 31)]),
    ([120, 45, 102, 111, 114, 119, 97, 114, 100, 101, 100, 45, 102, 111, 114], [([], 96)]),
    ([97, 99, 99, 101, 112, 116, 45, 108, 97, 110, 103, 117, 97, 103, 101], [([], 72)]),
    ([120, 45, 102, 114, 97, 109, 101, 45, 111, 112, 116, 105, 111, 110, 115], [([100, 101,
      110, 121], 97), ([115, 97, 109, 101, 111, 114, 105, 103, 105, 110], 98)])],
  -- 16: content-encoding, x-xss-protection
  [
    ([99, 111, 110, 116, 101, 110, 116, 45, 101, 110, 99, 111, 100, 105, 110, 103], [([98,
      114], 42), ([103, 122, 105, 112], 43)]),
    ([120, 45, 120, 115, 115, 45, 112, 114, 111, 116, 101, 99, 116, 105, 111, 110], [([49, 59,
      32, 109, 111, 100, 101, 61, 98, 108, 111, 99, 107], 62)])],
  -- 17: if-modified-since
  [
    ([105, 102, 45, 109, 111, 100, 105, 102, 105, 101, 100, 45, 115, 105, 110, 99, 101], [([],
      8)])],
  -- 18
  [],
  -- 19: content-disposition, timing-allow-origin
  [
    ([99, 111, 110, 116, 101, 110, 116, 45, 100, 105, 115, 112, 111, 115, 105, 116, 105, 111,
      110], [([], 3)]),
    ([116, 105, 109, 105, 110, 103, 45, 97, 108, 108, 111, 119, 45, 111, 114, 105, 103, 105,
      110], [([42], 93)])],
  -- 20
  [],
  -- 21
  [],
  -- 22: x-content-type-options
  [
    ([120, 45, 99, 111, 110, 116, 101, 110, 116, 45, 116, 121, 112, 101, 45, 111, 112, 116,
      105, 111, 110, 115], [([110, 111, 115, 110, 105, 102, 102], 61)])],
  -- 23: content-security-policy
  [
    ([99, 111, 110, 116, 101, 110, 116, 45, 115, 101, 99, 117, 114, 105, 116, 121, 45, 112,
      111, 108, 105, 99, 121], [([115, 99, 114, 105, 112, 116, 45, 115, 114, 99, 32, 39, 110,
      111, 110, 101, 39, 59, 32, 111, 98, 106, 101, 99, 116, 45, 115, 114, 99, 32, 39, 110,
      111, 110, 101, 39, 59, 32, 98, 97, 115, 101, 45, 117, 114, 105, 32, 39, 110, 111, 110,
      101, 39], 85)])],
  -- 24
  [],
  -- 25: upgrade-insecure-requests, strict-transport-security
  [
    ([117, 112, 103, 114, 97, 100, 101, 45, 105, 110, 115, 101, 99, 117, 114, 101, 45, 114,
      101, 113, 117, 101, 115, 116, 115], [([49], 94)]),
    ([115, 116, 114, 105, 99, 116, 45, 116, 114, 97, 110, 115, 112, 111, 114, 116, 45, 115,
      101, 99, 117, 114, 105, 116, 121], [([109, 97, 120, 45, 97, 103, 101, 61, 51, 49, 53, 51,
      54, 48, 48, 48], 56), ([109, 97, 120, 45, 97, 103, 101, 61, 51, 49, 53, 51, 54, 48, 48,
      48, 59, 32, 105, 110, 99, 108, 117, 100, 101, 115, 117, 98, 100, 111, 109, 97, 105, 110,
      115], 57), ([109, 97, 120, 45, 97, 103, 101, 61, 51, 49, 53, 51, 54, 48, 48, 48, 59, 32,
      105, 110, 99, 108, 117, 100, 101, 115, 117, 98, 100, 111, 109, 97, 105, 110, 115, 59, 32,
      112, 114, 101, 108, 111, 97, 100], 58)])],
  -- 26
  [],
  -- 27: access-control-allow-origin
  [
    ([97, 99, 99, 101, 115, 115, 45, 99, 111, 110, 116, 114, 111, 108, 45, 97, 108, 108, 111,
      119, 45, 111, 114, 105, 103, 105, 110], [([42], 35)])],
  -- 28: access-control-allow-methods, access-control-allow-headers
  [
    ([97, 99, 99, 101, 115, 115, 45, 99, 111, 110, 116, 114, 111, 108, 45, 97, 108, 108, 111,
      119, 45, 109, 101, 116, 104, 111, 100, 115], [([103, 101, 116], 76), ([103, 101, 116, 44,
      32, 112, 111, 115, 116, 44, 32, 111, 112, 116, 105, 111, 110, 115], 77), ([111, 112, 116,
      105, 111, 110, 115], 78)]),
    ([97, 99, 99, 101, 115, 115, 45, 99, 111, 110, 116, 114, 111, 108, 45, 97, 108, 108, 111,
      119, 45, 104, 101, 97, 100, 101, 114, 115], [([99, 97, 99, 104, 101, 45, 99, 111, 110,
      116, 114, 111, 108], 33), ([99, 111, 110, 116, 101, 110, 116, 45, 116, 121, 112, 101],
      34), ([42], 75)])],
  -- 29: access-control-expose-headers, access-control-request-method
  [
    ([97, 99, 99, 101, 115, 115, 45, 99, 111, 110, 116, 114, 111, 108, 45, 101, 120, 112, 111,
      115, 101, 45, 104, 101, 97, 100, 101, 114, 115], [([99, 111, 110, 116, 101, 110, 116, 45,
      108, 101, 110, 103, 116, 104], 79)]),
    ([97, 99, 99, 101, 115, 115, 45, 99, 111, 110, 116, 114, 111, 108, 45, 114, 101, 113, 117,
      101, 115, 116, 45, 109, 101, 116, 104, 111, 100], [([103, 101, 116], 81), ([112, 111,
      115, 116], 82)])],
  -- 30: access-control-request-headers
  [
    ([97, 99, 99, 101, 115, 115, 45, 99, 111, 110, 116, 114, 111, 108, 45, 114, 101, 113, 117,
      101, 115, 116, 45, 104, 101, 97, 100, 101, 114, 115], [([99, 111, 110, 116, 101, 110,
      116, 45, 116, 121, 112, 101], 80)])],
  -- 31
  [],
  -- 32: access-control-allow-credentials
  [
    ([97, 99, 99, 101, 115, 115, 45, 99, 111, 110, 116, 114, 111, 108, 45, 97, 108, 108, 111,
      119, 45, 99, 114, 101, 100, 101, 110, 116, 105, 97, 108, 115], [([70, 65, 76, 83, 69],
      73), ([84, 82, 85, 69], 74)])]
]

/-- `STATIC_DECODE_TABLE` (h3/qpack/static_table.rs:214-323). -/
def decodeTable : List (Bytes × Bytes) := [
  -- 0: :authority:
  ([58, 97, 117, 116, 104, 111, 114, 105, 116, 121], []),
  -- 1: :path: /
  ([58, 112, 97, 116, 104], [47]),
  -- 2: age: 0
  ([97, 103, 101], [48]),
  -- 3: content-disposition:
  ([99, 111, 110, 116, 101, 110, 116, 45, 100, 105, 115, 112, 111, 115, 105, 116, 105, 111,
    110], []),
  -- 4: content-length: 0
  ([99, 111, 110, 116, 101, 110, 116, 45, 108, 101, 110, 103, 116, 104], [48]),
  -- 5: cookie:
  ([99, 111, 111, 107, 105, 101], []),
  -- 6: date:
  ([100, 97, 116, 101], []),
  -- 7: etag:
  ([101, 116, 97, 103], []),
  -- 8: if-modified-since:
  ([105, 102, 45, 109, 111, 100, 105, 102, 105, 101, 100, 45, 115, 105, 110, 99, 101], []),
  -- 9: if-none-match:
  ([105, 102, 45, 110, 111, 110, 101, 45, 109, 97, 116, 99, 104], []),
  -- 10: last-modified:
  ([108, 97, 115, 116, 45, 109, 111, 100, 105, 102, 105, 101, 100], []),
  -- 11: link:
  ([108, 105, 110, 107], []),
  -- 12: location:
  ([108, 111, 99, 97, 116, 105, 111, 110], []),
  -- 13: referer:
  ([114, 101, 102, 101, 114, 101, 114], []),
  -- 14: set-cookie:
  ([115, 101, 116, 45, 99, 111, 111, 107, 105, 101], []),
  -- 15: :method: CONNECT
  ([58, 109, 101, 116, 104, 111, 100], [67, 79, 78, 78, 69, 67, 84]),
  -- 16: :method: DELETE
  ([58, 109, 101, 116, 104, 111, 100], [68, 69, 76, 69, 84, 69]),
  -- 17: :method: GET
  ([58, 109, 101, 116, 104, 111, 100], [71, 69, 84]),
  -- 18: :method: HEAD
  ([58, 109, 101, 116, 104, 111, 100], [72, 69, 65, 68]),
  -- 19: :method: OPTIONS
  ([58, 109, 101, 116, 104, 111, 100], [79, 80, 84, 73, 79, 78, 83]),
  -- 20: :method: POST
  ([58, 109, 101, 116, 104, 111, 100], [80, 79, 83, 84]),
  -- 21: :method: PUT
  ([58, 109, 101, 116, 104, 111, 100], [80, 85, 84]),
  -- 22: :scheme: http
  ([58, 115, 99, 104, 101, 109, 101], [104, 116, 116, 112]),
  -- 23: :scheme: https
  ([58, 115, 99, 104, 101, 109, 101], [104, 116, 116, 112, 115]),
  -- 24: :status: 103
  ([58, 115, 116, 97, 116, 117, 115], [49, 48, 51]),
  -- 25: :status: 200
  ([58, 115, 116, 97, 116, 117, 115], [50, 48, 48]),
  -- 26: :status: 304
  ([58, 115, 116, 97, 116, 117, 115], [51, 48, 52]),
  -- 27: :status: 404
  ([58, 115, 116, 97, 116, 117, 115], [52, 48, 52]),
  -- 28: :status: 503
  ([58, 115, 116, 97, 116, 117, 115], [53, 48, 51]),
  -- 29: accept: */*
  ([97, 99, 99, 101, 112, 116], [42, 47, 42]),
  -- 30: accept: application/dns-message
  ([97, 99, 99, 101, 112, 116], [97, 112, 112, 108, 105, 99, 97, 116, 105, 111, 110, 47, 100,
    110, 115, 45, 109, 101, 115, 115, 97, 103, 101]),
  -- 31: accept-encoding: gzip, deflate, br
  ([97, 99, 99, 101, 112, 116, 45, 101, 110, 99, 111, 100, 105, 110, 103], [103, 122, 105, 112,
    44, 32, 100, 101, 102, 108, 97, 116, 101, 44, 32, 98, 114]),
  -- 32: accept-ranges: bytes
  ([97, 99, 99, 101, 112, 116, 45, 114, 97, 110, 103, 101, 115], [98, 121, 116, 101, 115]),
  -- 33: access-control-allow-headers: cache-control
  ([97, 99, 99, 101, 115, 115, 45, 99, 111, 110, 116, 114, 111, 108, 45, 97, 108, 108, 111,
    119, 45, 104, 101, 97, 100, 101, 114, 115], [99, 97, 99, 104, 101, 45, 99, 111, 110, 116,
    114, 111, 108]),
  -- 34: access-control-allow-headers: content-type
  ([97, 99, 99, 101, 115, 115, 45, 99, 111, 110, 116, 114, 111, 108, 45, 97, 108, 108, 111,
    119, 45, 104, 101, 97, 100, 101, 114, 115], [99, 111, 110, 116, 101, 110, 116, 45, 116,
    121, 112, 101]),
  -- 35: access-control-allow-origin: *
  ([97, 99, 99, 101, 115, 115, 45, 99, 111, 110, 116, 114, 111, 108, 45, 97, 108, 108, 111,
    119, 45, 111, 114, 105, 103, 105, 110], [42]),
  -- 36: cache-control: max-age=0
  ([99, 97, 99, 104, 101, 45, 99, 111, 110, 116, 114, 111, 108], [109, 97, 120, 45, 97, 103,
    101, 61, 48]),
  -- 37: cache-control: max-age=2592000
  ([99, 97, 99, 104, 101, 45, 99, 111, 110, 116, 114, 111, 108], [109, 97, 120, 45, 97, 103,
    101, 61, 50, 53, 57, 50, 48, 48, 48]),
  -- 38: cache-control: max-age=604800
  ([99, 97, 99, 104, 101, 45, 99, 111, 110, 116, 114, 111, 108], [109, 97, 120, 45, 97, 103,
    101, 61, 54, 48, 52, 56, 48, 48]),
  -- 39: cache-control: no-cache
  ([99, 97, 99, 104, 101, 45, 99, 111, 110, 116, 114, 111, 108], [110, 111, 45, 99, 97, 99,
    104, 101]),
  -- 40: cache-control: no-store
  ([99, 97, 99, 104, 101, 45, 99, 111, 110, 116, 114, 111, 108], [110, 111, 45, 115, 116, 111,
    114, 101]),
  -- 41: cache-control: public, max-age=31536000
  ([99, 97, 99, 104, 101, 45, 99, 111, 110, 116, 114, 111, 108], [112, 117, 98, 108, 105, 99,
    44, 32, 109, 97, 120, 45, 97, 103, 101, 61, 51, 49, 53, 51, 54, 48, 48, 48]),
  -- 42: content-encoding: br
  ([99, 111, 110, 116, 101, 110, 116, 45, 101, 110, 99, 111, 100, 105, 110, 103], [98, 114]),
  -- 43: content-encoding: gzip
  ([99, 111, 110, 116, 101, 110, 116, 45, 101, 110, 99, 111, 100, 105, 110, 103], [103, 122,
    105, 112]),
  -- 44: content-type: application/dns-message
  ([99, 111, 110, 116, 101, 110, 116, 45, 116, 121, 112, 101], [97, 112, 112, 108, 105, 99, 97,
    116, 105, 111, 110, 47, 100, 110, 115, 45, 109, 101, 115, 115, 97, 103, 101]),
  -- 45: content-type: application/javascript
  ([99, 111, 110, 116, 101, 110, 116, 45, 116, 121, 112, 101], [97, 112, 112, 108, 105, 99, 97,
    116, 105, 111, 110, 47, 106, 97, 118, 97, 115, 99, 114, 105, 112, 116]),
  -- 46: content-type: application/json
  ([99, 111, 110, 116, 101, 110, 116, 45, 116, 121, 112, 101], [97, 112, 112, 108, 105, 99, 97,
    116, 105, 111, 110, 47, 106, 115, 111, 110]),
  -- 47: content-type: application/x-www-form-urlencoded
  ([99, 111, 110, 116, 101, 110, 116, 45, 116, 121, 112, 101], [97, 112, 112, 108, 105, 99, 97,
    116, 105, 111, 110, 47, 120, 45, 119, 119, 119, 45, 102, 111, 114, 109, 45, 117, 114, 108,
    101, 110, 99, 111, 100, 101, 100]),
  -- 48: content-type: image/gif
  ([99, 111, 110, 116, 101, 110, 116, 45, 116, 121, 112, 101], [105, 109, 97, 103, 101, 47,
    103, 105, 102]),
  -- 49: content-type: image/jpeg
  ([99, 111, 110, 116, 101, 110, 116, 45, 116, 121, 112, 101], [105, 109, 97, 103, 101, 47,
    106, 112, 101, 103]),
  -- 50: content-type: image/png
  ([99, 111, 110, 116, 101, 110, 116, 45, 116, 121, 112, 101], [105, 109, 97, 103, 101, 47,
    112, 110, 103]),
  -- 51: content-type: text/css
  ([99, 111, 110, 116, 101, 110, 116, 45, 116, 121, 112, 101], [116, 101, 120, 116, 47, 99,
    115, 115]),
  -- 52: content-type: text/html; charset=utf-8
  ([99, 111, 110, 116, 101, 110, 116, 45, 116, 121, 112, 101], [116, 101, 120, 116, 47, 104,
    116, 109, 108, 59, 32, 99, 104, 97, 114, 115, 101, 116, 61, 117, 116, 102, 45, 56]),
  -- 53: content-type: text/plain
  ([99, 111, 110, 116, 101, 110, 116, 45, 116, 121, 112, 101], [116, 101, 120, 116, 47, 112,
    108, 97, 105, 110]),
  -- 54: content-type: text/plain;charset=utf-8
  ([99, 111, 110, 116, 101, 110, 116, 45, 116, 121, 112, 101], [116, 101, 120, 116, 47, 112,
    108, 97, 105, 110, 59, 99, 104, 97, 114, 115, 101, 116, 61, 117, 116, 102, 45, 56]),
  -- 55: range: bytes=0-
  ([114, 97, 110, 103, 101], [98, 121, 116, 101, 115, 61, 48, 45]),
  -- 56: strict-transport-security: max-age=31536000
  ([115, 116, 114, 105, 99, 116, 45, 116, 114, 97, 110, 115, 112, 111, 114, 116, 45, 115, 101,
    99, 117, 114, 105, 116, 121], [109, 97, 120, 45, 97, 103, 101, 61, 51, 49, 53, 51, 54, 48,
    48, 48]),
  -- 57: strict-transport-security: max-age=31536000; includesubdomains
  ([115, 116, 114, 105, 99, 116, 45, 116, 114, 97, 110, 115, 112, 111, 114, 116, 45, 115, 101,
    99, 117, 114, 105, 116, 121], [109, 97, 120, 45, 97, 103, 101, 61, 51, 49, 53, 51, 54, 48,
    48, 48, 59, 32, 105, 110, 99, 108, 117, 100, 101, 115, 117, 98, 100, 111, 109, 97, 105,
    110, 115]),
  -- 58: strict-transport-security: max-age=31536000; includesubdomains; preload
  ([115, 116, 114, 105, 99, 116, 45, 116, 114, 97, 110, 115, 112, 111, 114, 116, 45, 115, 101,
    99, 117, 114, 105, 116, 121], [109, 97, 120, 45, 97, 103, 101, 61, 51, 49, 53, 51, 54, 48,
    48, 48, 59, 32, 105, 110, 99, 108, 117, 100, 101, 115, 117, 98, 100, 111, 109, 97, 105,
    110, 115, 59, 32, 112, 114, 101, 108, 111, 97, 100]),
  -- 59: vary: accept-encoding
  ([118, 97, 114, 121], [97, 99, 99, 101, 112, 116, 45, 101, 110, 99, 111, 100, 105, 110,
    103]),
  -- 60: vary: origin
  ([118, 97, 114, 121], [111, 114, 105, 103, 105, 110]),
  -- 61: x-content-type-options: nosniff
  ([120, 45, 99, 111, 110, 116, 101, 110, 116, 45, 116, 121, 112, 101, 45, 111, 112, 116, 105,
    111, 110, 115], [110, 111, 115, 110, 105, 102, 102]),
  -- 62: x-xss-protection: 1; mode=block
  ([120, 45, 120, 115, 115, 45, 112, 114, 111, 116, 101, 99, 116, 105, 111, 110], [49, 59, 32,
    109, 111, 100, 101, 61, 98, 108, 111, 99, 107]),
  -- 63: :status: 100
  ([58, 115, 116, 97, 116, 117, 115], [49, 48, 48]),
  -- 64: :status: 204
  ([58, 115, 116, 97, 116, 117, 115], [50, 48, 52]),
  -- 65: :status: 206
  ([58, 115, 116, 97, 116, 117, 115], [50, 48, 54]),
  -- 66: :status: 302
  ([58, 115, 116, 97, 116, 117, 115], [51, 48, 50]),
  -- 67: :status: 400
  ([58, 115, 116, 97, 116, 117, 115], [52, 48, 48]),
  -- 68: :status: 403
  ([58, 115, 116, 97, 116, 117, 115], [52, 48, 51]),
  -- 69: :status: 421
  ([58, 115, 116, 97, 116, 117, 115], [52, 50, 49]),
  -- 70: :status: 425
  ([58, 115, 116, 97, 116, 117, 115], [52, 50, 53]),
  -- 71: :status: 500
  ([58, 115, 116, 97, 116, 117, 115], [53, 48, 48]),
  -- 72: accept-language:
  ([97, 99, 99, 101, 112, 116, 45, 108, 97, 110, 103, 117, 97, 103, 101], []),
  -- 73: access-control-allow-credentials: FALSE
  ([97, 99, 99, 101, 115, 115, 45, 99, 111, 110, 116, 114, 111, 108, 45, 97, 108, 108, 111,
    119, 45, 99, 114, 101, 100, 101, 110, 116, 105, 97, 108, 115], [70, 65, 76, 83, 69]),
  -- 74: access-control-allow-credentials: TRUE
  ([97, 99, 99, 101, 115, 115, 45, 99, 111, 110, 116, 114, 111, 108, 45, 97, 108, 108, 111,
    119, 45, 99, 114, 101, 100, 101, 110, 116, 105, 97, 108, 115], [84, 82, 85, 69]),
  -- 75: access-control-allow-headers: *
  ([97, 99, 99, 101, 115, 115, 45, 99, 111, 110, 116, 114, 111, 108, 45, 97, 108, 108, 111,
    119, 45, 104, 101, 97, 100, 101, 114, 115], [42]),
  -- 76: access-control-allow-methods: get
  ([97, 99, 99, 101, 115, 115, 45, 99, 111, 110, 116, 114, 111, 108, 45, 97, 108, 108, 111,
    119, 45, 109, 101, 116, 104, 111, 100, 115], [103, 101, 116]),
  -- 77: access-control-allow-methods: get, post, options
  ([97, 99, 99, 101, 115, 115, 45, 99, 111, 110, 116, 114, 111, 108, 45, 97, 108, 108, 111,
    119, 45, 109, 101, 116, 104, 111, 100, 115], [103, 101, 116, 44, 32, 112, 111, 115, 116,
    44, 32, 111, 112, 116, 105, 111, 110, 115]),
  -- 78: access-control-allow-methods: options
  ([97, 99, 99, 101, 115, 115, 45, 99, 111, 110, 116, 114, 111, 108, 45, 97, 108, 108, 111,
    119, 45, 109, 101, 116, 104, 111, 100, 115], [111, 112, 116, 105, 111, 110, 115]),
  -- 79: access-control-expose-headers: content-length
  ([97, 99, 99, 101, 115, 115, 45, 99, 111, 110, 116, 114, 111, 108, 45, 101, 120, 112, 111,
    115, 101, 45, 104, 101, 97, 100, 101, 114, 115], [99, 111, 110, 116, 101, 110, 116, 45,
    108, 101, 110, 103, 116, 104]),
  -- 80: access-control-request-headers: content-type
  ([97, 99, 99, 101, 115, 115, 45, 99, 111, 110, 116, 114, 111, 108, 45, 114, 101, 113, 117,
    101, 115, 116, 45, 104, 101, 97, 100, 101, 114, 115], [99, 111, 110, 116, 101, 110, 116,
    45, 116, 121, 112, 101]),
  -- 81: access-control-request-method: get
  ([97, 99, 99, 101, 115, 115, 45, 99, 111, 110, 116, 114, 111, 108, 45, 114, 101, 113, 117,
    101, 115, 116, 45, 109, 101, 116, 104, 111, 100], [103, 101, 116]),
  -- 82: access-control-request-method: post
  ([97, 99, 99, 101, 115, 115, 45, 99, 111, 110, 116, 114, 111, 108, 45, 114, 101, 113, 117,
    101, 115, 116, 45, 109, 101, 116, 104, 111, 100], [112, 111, 115, 116]),
  -- 83: alt-svc: clear
  ([97, 108, 116, 45, 115, 118, 99], [99, 108, 101, 97, 114]),
  -- 84: authorization:
  ([97, 117, 116, 104, 111, 114, 105, 122, 97, 116, 105, 111, 110], []),
  -- 85: content-security-policy: script-src 'none'; object-src 'none'; base-uri 'none'
  ([99, 111, 110, 116, 101, 110, 116, 45, 115, 101, 99, 117, 114, 105, 116, 121, 45, 112, 111,
    108, 105, 99, 121], [115, 99, 114, 105, 112, 116, 45, 115, 114, 99, 32, 39, 110, 111, 110,
    101, 39, 59, 32, 111, 98, 106, 101, 99, 116, 45, 115, 114, 99, 32, 39, 110, 111, 110, 101,
    39, 59, 32, 98, 97, 115, 101, 45, 117, 114, 105, 32, 39, 110, 111, 110, 101, 39]),
  -- 86: early-data: 1
  ([101, 97, 114, 108, 121, 45, 100, 97, 116, 97], [49]),
  -- 87: expect-ct:
  ([101, 120, 112, 101, 99, 116, 45, 99, 116], []),
  -- 88: forwarded:
  ([102, 111, 114, 119, 97, 114, 100, 101, 100], []),
  -- 89: if-range:
  ([105, 102, 45, 114, 97, 110, 103, 101], []),
  -- 90: origin:
  ([111, 114, 105, 103, 105, 110], []),
  -- 91: purpose: prefetch
  ([112, 117, 114, 112, 111, 115, 101], [112, 114, 101, 102, 101, 116, 99, 104]),
  -- 92: server:
  ([115, 101, 114, 118, 101, 114], []),
  -- 93: timing-allow-origin: *
  ([116, 105, 109, 105, 110, 103, 45, 97, 108, 108, 111, 119, 45, 111, 114, 105, 103, 105,
    110], [42]),
  -- 94: upgrade-insecure-requests: 1
  ([117, 112, 103, 114, 97, 100, 101, 45, 105, 110, 115, 101, 99, 117, 114, 101, 45, 114, 101,
    113, 117, 101, 115, 116, 115], [49]),
  -- 95: user-agent:
  ([117, 115, 101, 114, 45, 97, 103, 101, 110, 116], []),
  -- 96: x-forwarded-for:
  ([120, 45, 102, 111, 114, 119, 97, 114, 100, 101, 100, 45, 102, 111, 114], []),
  -- 97: x-frame-options: deny
  ([120, 45, 102, 114, 97, 109, 101, 45, 111, 112, 116, 105, 111, 110, 115], [100, 101, 110,
    121]),
  -- 98: x-frame-options: sameorigin
  ([120, 45, 102, 114, 97, 109, 101, 45, 111, 112, 116, 105, 111, 110, 115], [115, 97, 109,
    101, 111, 114, 105, 103, 105, 110])
]

end Verif.Qpack
