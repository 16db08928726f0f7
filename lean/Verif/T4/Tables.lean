/-! # The tables of the T.4 and T.6 coder and decoder

The decoding tables have 128, 4096 and 8192 entries. An entry {state, width, param} is five hexadecimal digits, `PPPWS` (the parameters of the two dimensional table
are -3..3 and have 3 added). A number has 64 entries, the entry of the lowest index in its lowest digits. -/

namespace T4

/-- `t4_white_codes`, src/t4_t6_encode.c:149-255: length, code, run length. -/
def whiteCodes : List (Nat × Nat × Nat) := [
  (8,0x00AC,0), (6,0x0038,1), (4,0x000E,2), (4,0x0001,3), (4,0x000D,4), (4,0x0003,5), (4,0x0007,6), (4,0x000F,7),
  (5,0x0019,8), (5,0x0005,9), (5,0x001C,10), (5,0x0002,11), (6,0x0004,12), (6,0x0030,13), (6,0x000B,14), (6,0x002B,15),
  (6,0x0015,16), (6,0x0035,17), (7,0x0072,18), (7,0x0018,19), (7,0x0008,20), (7,0x0074,21), (7,0x0060,22), (7,0x0010,23),
  (7,0x000A,24), (7,0x006A,25), (7,0x0064,26), (7,0x0012,27), (7,0x000C,28), (8,0x0040,29), (8,0x00C0,30), (8,0x0058,31),
  (8,0x00D8,32), (8,0x0048,33), (8,0x00C8,34), (8,0x0028,35), (8,0x00A8,36), (8,0x0068,37), (8,0x00E8,38), (8,0x0014,39),
  (8,0x0094,40), (8,0x0054,41), (8,0x00D4,42), (8,0x0034,43), (8,0x00B4,44), (8,0x0020,45), (8,0x00A0,46), (8,0x0050,47),
  (8,0x00D0,48), (8,0x004A,49), (8,0x00CA,50), (8,0x002A,51), (8,0x00AA,52), (8,0x0024,53), (8,0x00A4,54), (8,0x001A,55),
  (8,0x009A,56), (8,0x005A,57), (8,0x00DA,58), (8,0x0052,59), (8,0x00D2,60), (8,0x004C,61), (8,0x00CC,62), (8,0x002C,63),
  (5,0x001B,64), (5,0x0009,128), (6,0x003A,192), (7,0x0076,256), (8,0x006C,320), (8,0x00EC,384), (8,0x0026,448), (8,0x00A6,512),
  (8,0x0016,576), (8,0x00E6,640), (9,0x0066,704), (9,0x0166,768), (9,0x0096,832), (9,0x0196,896), (9,0x0056,960), (9,0x0156,1024),
  (9,0x00D6,1088), (9,0x01D6,1152), (9,0x0036,1216), (9,0x0136,1280), (9,0x00B6,1344), (9,0x01B6,1408), (9,0x0032,1472), (9,0x0132,1536),
  (9,0x00B2,1600), (6,0x0006,1664), (9,0x01B2,1728), (11,0x0080,1792), (11,0x0180,1856), (11,0x0580,1920), (12,0x0480,1984), (12,0x0C80,2048),
  (12,0x0280,2112), (12,0x0A80,2176), (12,0x0680,2240), (12,0x0E80,2304), (12,0x0380,2368), (12,0x0B80,2432), (12,0x0780,2496), (12,0x0F80,2560)]

/-- `t4_black_codes`, src/t4_t6_encode.c:257-363: length, code, run length. -/
def blackCodes : List (Nat × Nat × Nat) := [
  (10,0x03B0,0), (3,0x0002,1), (2,0x0003,2), (2,0x0001,3), (3,0x0006,4), (4,0x000C,5), (4,0x0004,6), (5,0x0018,7),
  (6,0x0028,8), (6,0x0008,9), (7,0x0010,10), (7,0x0050,11), (7,0x0070,12), (8,0x0020,13), (8,0x00E0,14), (9,0x0030,15),
  (10,0x03A0,16), (10,0x0060,17), (10,0x0040,18), (11,0x0730,19), (11,0x00B0,20), (11,0x01B0,21), (11,0x0760,22), (11,0x00A0,23),
  (11,0x0740,24), (11,0x00C0,25), (12,0x0530,26), (12,0x0D30,27), (12,0x0330,28), (12,0x0B30,29), (12,0x0160,30), (12,0x0960,31),
  (12,0x0560,32), (12,0x0D60,33), (12,0x04B0,34), (12,0x0CB0,35), (12,0x02B0,36), (12,0x0AB0,37), (12,0x06B0,38), (12,0x0EB0,39),
  (12,0x0360,40), (12,0x0B60,41), (12,0x05B0,42), (12,0x0DB0,43), (12,0x02A0,44), (12,0x0AA0,45), (12,0x06A0,46), (12,0x0EA0,47),
  (12,0x0260,48), (12,0x0A60,49), (12,0x04A0,50), (12,0x0CA0,51), (12,0x0240,52), (12,0x0EC0,53), (12,0x01C0,54), (12,0x0E40,55),
  (12,0x0140,56), (12,0x01A0,57), (12,0x09A0,58), (12,0x0D40,59), (12,0x0340,60), (12,0x05A0,61), (12,0x0660,62), (12,0x0E60,63),
  (10,0x03C0,64), (12,0x0130,128), (12,0x0930,192), (12,0x0DA0,256), (12,0x0CC0,320), (12,0x02C0,384), (12,0x0AC0,448), (13,0x06C0,512),
  (13,0x16C0,576), (13,0x0A40,640), (13,0x1A40,704), (13,0x0640,768), (13,0x1640,832), (13,0x09C0,896), (13,0x19C0,960), (13,0x05C0,1024),
  (13,0x15C0,1088), (13,0x0DC0,1152), (13,0x1DC0,1216), (13,0x0940,1280), (13,0x1940,1344), (13,0x0540,1408), (13,0x1540,1472), (13,0x0B40,1536),
  (13,0x1B40,1600), (13,0x04C0,1664), (13,0x14C0,1728), (11,0x0080,1792), (11,0x0180,1856), (11,0x0580,1920), (12,0x0480,1984), (12,0x0C80,2048),
  (12,0x0280,2112), (12,0x0A80,2176), (12,0x0680,2240), (12,0x0E80,2304), (12,0x0380,2368), (12,0x0B80,2432), (12,0x0780,2496), (12,0x0F80,2560)]

/-- `t4_2d_table`, src/t4_t6_decode_states.h:56-186. -/
def table2d : List Nat := [
  0x00313004330031300332003130023300313003410031300433003130033200313002330031300563003130043300313003320031300233003130034100313004330031300332003130023300313000730031300433003130033200313002330031300341003130043300313003320031300233003130016300313004330031300332003130023300313003410031300433003130033200313002330031300310,
  0x00313004330031300332003130023300313003410031300433003130033200313002330031300563003130043300313003320031300233003130034100313004330031300332003130023300313006730031300433003130033200313002330031300341003130043300313003320031300233003130016300313004330031300332003130023300313003410031300433003130033200313002330031300374]

/-- `t4_1d_white_table`, src/t4_t6_decode_states.h:188-4286. -/
def tableW : List Nat := [
  0x00745002450044500a55040570c0670085500165006454c0970116502b85005455c0970034500d6500745002450044503f8500f65033850805702385006451c08700955035850054500b550034502d8500745002450044500a5504057037850085501375006452408701065027850054501b75003450177500745002450044501c7500e6501875080570147500645680670095500c650054500b550034500010,
  0x00745002450044500a55040570c06700855001650064510077011650157500545012750034500d650074500245004451408700f65019750805702585006452c0970095501a750054500b55003450167500745002450044500a5504057039850085501f85006453c09701065029850054503b850034502f8500745002450044503d8500e6503185080570218500645680670095500c650054500b550034501d85,
  0x00745002450044500a55040570c067008550016500645540970116502c8500545640970034500d650074500245004450008500f65034850805702485006452008700955036850054500b550034502e8500745002450044500a5504057038850085501375006453409701065028850054501b75003450177500745002450044501c7500e6501875080570147500645680670095500c650054500b5500345700b9,
  0x00745002450044500a55040570c06700855001650064510077011650157500545012750034500d650074500245004451808700f6501975080570268500645280870095501a750054500b55003450167500745002450044500a550405703a85008550208500645440970106502a850054503c85003450308500745002450044503e8500e6503285080570228500645680670095500c650054500b550034501e85,
  0x00745002450044500a55040570c067008550016500645500970116502b8500545600970034500d6500745002450044503f8500f65033850805702385006451c08700955035850054500b550034502d8500745002450044500a5504057037850085501375006452408701065027850054501b75003450177500745002450044501c7500e6501875080570147500645680670095500c650054500b550034500010,
  0x00745002450044500a55040570c06700855001650064510077011650157500545012750034500d650074500245004451408700f6501975080570258500645300970095501a750054500b55003450167500745002450044500a5504057039850085501f85006454009701065029850054503b850034502f8500745002450044503d8500e6503185080570218500645680670095500c650054500b550034501d85,
  0x00745002450044500a55040570c067008550016500645580970116502c85005456c0970034500d650074500245004450008500f65034850805702485006452008700955036850054500b550034502e8500745002450044500a5504057038850085501375006453809701065028850054501b75003450177500745002450044501c7500e6501875080570147500645680670095500c650054500b5500345740b9,
  0x00745002450044500a55040570c06700855001650064510077011650157500545012750034500d650074500245004451808700f6501975080570268500645280870095501a750054500b55003450167500745002450044500a550405703a85008550208500645480970106502a850054503c85003450308500745002450044503e8500e6503285080570228500645680670095500c650054500b550034501e85,
  0x00745002450044500a55040570c0670085500165006454c0970116502b85005455c0970034500d6500745002450044503f8500f65033850805702385006451c08700955035850054500b550034502d8500745002450044500a5504057037850085501375006452408701065027850054501b75003450177500745002450044501c7500e6501875080570147500645680670095500c650054500b550034500010,
  0x00745002450044500a55040570c06700855001650064510077011650157500545012750034500d650074500245004451408700f65019750805702585006452c0970095501a750054500b55003450167500745002450044500a5504057039850085501f85006453c09701065029850054503b850034502f8500745002450044503d8500e6503185080570218500645680670095500c650054500b550034501d85,
  0x00745002450044500a55040570c067008550016500645540970116502c8500545640970034500d650074500245004450008500f65034850805702485006452008700955036850054500b550034502e8500745002450044500a5504057038850085501375006453409701065028850054501b75003450177500745002450044501c7500e6501875080570147500645680670095500c650054500b5500345840c9,
  0x00745002450044500a55040570c06700855001650064510077011650157500545012750034500d650074500245004451808700f6501975080570268500645280870095501a750054500b55003450167500745002450044500a550405703a85008550208500645440970106502a850054503c85003450308500745002450044503e8500e6503285080570228500645680670095500c650054500b550034501e85,
  0x00745002450044500a55040570c067008550016500645500970116502b8500545600970034500d6500745002450044503f8500f65033850805702385006451c08700955035850054500b550034502d8500745002450044500a5504057037850085501375006452408701065027850054501b75003450177500745002450044501c7500e6501875080570147500645680670095500c650054500b550034500010,
  0x00745002450044500a55040570c06700855001650064510077011650157500545012750034500d650074500245004451408700f6501975080570258500645300970095501a750054500b55003450167500745002450044500a5504057039850085501f85006454009701065029850054503b850034502f8500745002450044503d8500e6503185080570218500645680670095500c650054500b550034501d85,
  0x00745002450044500a55040570c067008550016500645580970116502c85005456c0970034500d650074500245004450008500f65034850805702485006452008700955036850054500b550034502e8500745002450044500a5504057038850085501375006453809701065028850054501b75003450177500745002450044501c7500e6501875080570147500645680670095500c650054500b5500345940c9,
  0x00745002450044500a55040570c06700855001650064510077011650157500545012750034500d650074500245004451808700f6501975080570268500645280870095501a750054500b55003450167500745002450044500a550405703a85008550208500645480970106502a850054503c85003450308500745002450044503e8500e6503285080570228500645680670095500c650054500b550034501e85,
  0x00745002450044500a55040570c0670085500165006454c0970116502b85005455c0970034500d6500745002450044503f8500f65033850805702385006451c08700955035850054500b550034502d8500745002450044500a5504057037850085501375006452408701065027850054501b75003450177500745002450044501c7500e6501875080570147500645680670095500c650054500b550034500010,
  0x00745002450044500a55040570c06700855001650064510077011650157500545012750034500d650074500245004451408700f65019750805702585006452c0970095501a750054500b55003450167500745002450044500a5504057039850085501f85006453c09701065029850054503b850034502f8500745002450044503d8500e6503185080570218500645680670095500c650054500b550034501d85,
  0x00745002450044500a55040570c067008550016500645540970116502c8500545640970034500d650074500245004450008500f65034850805702485006452008700955036850054500b550034502e8500745002450044500a5504057038850085501375006453409701065028850054501b75003450177500745002450044501c7500e6501875080570147500645680670095500c650054500b55003457c0c9,
  0x00745002450044500a55040570c06700855001650064510077011650157500545012750034500d650074500245004451808700f6501975080570268500645280870095501a750054500b55003450167500745002450044500a550405703a85008550208500645440970106502a850054503c85003450308500745002450044503e8500e6503285080570228500645680670095500c650054500b550034501e85,
  0x00745002450044500a55040570c067008550016500645500970116502b8500545600970034500d6500745002450044503f8500f65033850805702385006451c08700955035850054500b550034502d8500745002450044500a5504057037850085501375006452408701065027850054501b75003450177500745002450044501c7500e6501875080570147500645680670095500c650054500b550034500010,
  0x00745002450044500a55040570c06700855001650064510077011650157500545012750034500d650074500245004451408700f6501975080570258500645300970095501a750054500b55003450167500745002450044500a5504057039850085501f85006454009701065029850054503b850034502f8500745002450044503d8500e6503185080570218500645680670095500c650054500b550034501d85,
  0x00745002450044500a55040570c067008550016500645580970116502c85005456c0970034500d650074500245004450008500f65034850805702485006452008700955036850054500b550034502e8500745002450044500a5504057038850085501375006453809701065028850054501b75003450177500745002450044501c7500e6501875080570147500645680670095500c650054500b5500345780b9,
  0x00745002450044500a55040570c06700855001650064510077011650157500545012750034500d650074500245004451808700f6501975080570268500645280870095501a750054500b55003450167500745002450044500a550405703a85008550208500645480970106502a850054503c85003450308500745002450044503e8500e6503285080570228500645680670095500c650054500b550034501e85,
  0x00745002450044500a55040570c0670085500165006454c0970116502b85005455c0970034500d6500745002450044503f8500f65033850805702385006451c08700955035850054500b550034502d8500745002450044500a5504057037850085501375006452408701065027850054501b75003450177500745002450044501c7500e6501875080570147500645680670095500c650054500b550034500010,
  0x00745002450044500a55040570c06700855001650064510077011650157500545012750034500d650074500245004451408700f65019750805702585006452c0970095501a750054500b55003450167500745002450044500a5504057039850085501f85006453c09701065029850054503b850034502f8500745002450044503d8500e6503185080570218500645680670095500c650054500b550034501d85,
  0x00745002450044500a55040570c067008550016500645540970116502c8500545640970034500d650074500245004450008500f65034850805702485006452008700955036850054500b550034502e8500745002450044500a5504057038850085501375006453409701065028850054501b75003450177500745002450044501c7500e6501875080570147500645680670095500c650054500b55003458c0c9,
  0x00745002450044500a55040570c06700855001650064510077011650157500545012750034500d650074500245004451808700f6501975080570268500645280870095501a750054500b55003450167500745002450044500a550405703a85008550208500645440970106502a850054503c85003450308500745002450044503e8500e6503285080570228500645680670095500c650054500b550034501e85,
  0x00745002450044500a55040570c067008550016500645500970116502b8500545600970034500d6500745002450044503f8500f65033850805702385006451c08700955035850054500b550034502d8500745002450044500a5504057037850085501375006452408701065027850054501b75003450177500745002450044501c7500e6501875080570147500645680670095500c650054500b550034500010,
  0x00745002450044500a55040570c06700855001650064510077011650157500545012750034500d650074500245004451408700f6501975080570258500645300970095501a750054500b55003450167500745002450044500a5504057039850085501f85006454009701065029850054503b850034502f8500745002450044503d8500e6503185080570218500645680670095500c650054500b550034501d85,
  0x00745002450044500a55040570c067008550016500645580970116502c85005456c0970034500d650074500245004450008500f65034850805702485006452008700955036850054500b550034502e8500745002450044500a5504057038850085501375006453809701065028850054501b75003450177500745002450044501c7500e6501875080570147500645680670095500c650054500b55003459c0c9,
  0x00745002450044500a55040570c06700855001650064510077011650157500545012750034500d650074500245004451808700f6501975080570268500645280870095501a750054500b55003450167500745002450044500a550405703a85008550208500645480970106502a850054503c85003450308500745002450044503e8500e6503285080570228500645680670095500c650054500b550034501e85,
  0x00745002450044500a55040570c0670085500165006454c0970116502b85005455c0970034500d6500745002450044503f8500f65033850805702385006451c08700955035850054500b550034502d8500745002450044500a5504057037850085501375006452408701065027850054501b75003450177500745002450044501c7500e6501875080570147500645680670095500c650054500b5500345000ca,
  0x00745002450044500a55040570c06700855001650064510077011650157500545012750034500d650074500245004451408700f65019750805702585006452c0970095501a750054500b55003450167500745002450044500a5504057039850085501f85006453c09701065029850054503b850034502f8500745002450044503d8500e6503185080570218500645680670095500c650054500b550034501d85,
  0x00745002450044500a55040570c067008550016500645540970116502c8500545640970034500d650074500245004450008500f65034850805702485006452008700955036850054500b550034502e8500745002450044500a5504057038850085501375006453409701065028850054501b75003450177500745002450044501c7500e6501875080570147500645680670095500c650054500b5500345700b9,
  0x00745002450044500a55040570c06700855001650064510077011650157500545012750034500d650074500245004451808700f6501975080570268500645280870095501a750054500b55003450167500745002450044500a550405703a85008550208500645440970106502a850054503c85003450308500745002450044503e8500e6503285080570228500645680670095500c650054500b550034501e85,
  0x00745002450044500a55040570c067008550016500645500970116502b8500545600970034500d6500745002450044503f8500f65033850805702385006451c08700955035850054500b550034502d8500745002450044500a5504057037850085501375006452408701065027850054501b75003450177500745002450044501c7500e6501875080570147500645680670095500c650054500b550034500010,
  0x00745002450044500a55040570c06700855001650064510077011650157500545012750034500d650074500245004451408700f6501975080570258500645300970095501a750054500b55003450167500745002450044500a5504057039850085501f85006454009701065029850054503b850034502f8500745002450044503d8500e6503185080570218500645680670095500c650054500b550034501d85,
  0x00745002450044500a55040570c067008550016500645580970116502c85005456c0970034500d650074500245004450008500f65034850805702485006452008700955036850054500b550034502e8500745002450044500a5504057038850085501375006453809701065028850054501b75003450177500745002450044501c7500e6501875080570147500645680670095500c650054500b5500345740b9,
  0x00745002450044500a55040570c06700855001650064510077011650157500545012750034500d650074500245004451808700f6501975080570268500645280870095501a750054500b55003450167500745002450044500a550405703a85008550208500645480970106502a850054503c85003450308500745002450044503e8500e6503285080570228500645680670095500c650054500b550034501e85,
  0x00745002450044500a55040570c0670085500165006454c0970116502b85005455c0970034500d6500745002450044503f8500f65033850805702385006451c08700955035850054500b550034502d8500745002450044500a5504057037850085501375006452408701065027850054501b75003450177500745002450044501c7500e6501875080570147500645680670095500c650054500b550034500010,
  0x00745002450044500a55040570c06700855001650064510077011650157500545012750034500d650074500245004451408700f65019750805702585006452c0970095501a750054500b55003450167500745002450044500a5504057039850085501f85006453c09701065029850054503b850034502f8500745002450044503d8500e6503185080570218500645680670095500c650054500b550034501d85,
  0x00745002450044500a55040570c067008550016500645540970116502c8500545640970034500d650074500245004450008500f65034850805702485006452008700955036850054500b550034502e8500745002450044500a5504057038850085501375006453409701065028850054501b75003450177500745002450044501c7500e6501875080570147500645680670095500c650054500b5500345880c9,
  0x00745002450044500a55040570c06700855001650064510077011650157500545012750034500d650074500245004451808700f6501975080570268500645280870095501a750054500b55003450167500745002450044500a550405703a85008550208500645440970106502a850054503c85003450308500745002450044503e8500e6503285080570228500645680670095500c650054500b550034501e85,
  0x00745002450044500a55040570c067008550016500645500970116502b8500545600970034500d6500745002450044503f8500f65033850805702385006451c08700955035850054500b550034502d8500745002450044500a5504057037850085501375006452408701065027850054501b75003450177500745002450044501c7500e6501875080570147500645680670095500c650054500b550034500010,
  0x00745002450044500a55040570c06700855001650064510077011650157500545012750034500d650074500245004451408700f6501975080570258500645300970095501a750054500b55003450167500745002450044500a5504057039850085501f85006454009701065029850054503b850034502f8500745002450044503d8500e6503185080570218500645680670095500c650054500b550034501d85,
  0x00745002450044500a55040570c067008550016500645580970116502c85005456c0970034500d650074500245004450008500f65034850805702485006452008700955036850054500b550034502e8500745002450044500a5504057038850085501375006453809701065028850054501b75003450177500745002450044501c7500e6501875080570147500645680670095500c650054500b5500345980c9,
  0x00745002450044500a55040570c06700855001650064510077011650157500545012750034500d650074500245004451808700f6501975080570268500645280870095501a750054500b55003450167500745002450044500a550405703a85008550208500645480970106502a850054503c85003450308500745002450044503e8500e6503285080570228500645680670095500c650054500b550034501e85,
  0x00745002450044500a55040570c0670085500165006454c0970116502b85005455c0970034500d6500745002450044503f8500f65033850805702385006451c08700955035850054500b550034502d8500745002450044500a5504057037850085501375006452408701065027850054501b75003450177500745002450044501c7500e6501875080570147500645680670095500c650054500b550034500010,
  0x00745002450044500a55040570c06700855001650064510077011650157500545012750034500d650074500245004451408700f65019750805702585006452c0970095501a750054500b55003450167500745002450044500a5504057039850085501f85006453c09701065029850054503b850034502f8500745002450044503d8500e6503185080570218500645680670095500c650054500b550034501d85,
  0x00745002450044500a55040570c067008550016500645540970116502c8500545640970034500d650074500245004450008500f65034850805702485006452008700955036850054500b550034502e8500745002450044500a5504057038850085501375006453409701065028850054501b75003450177500745002450044501c7500e6501875080570147500645680670095500c650054500b5500345800c9,
  0x00745002450044500a55040570c06700855001650064510077011650157500545012750034500d650074500245004451808700f6501975080570268500645280870095501a750054500b55003450167500745002450044500a550405703a85008550208500645440970106502a850054503c85003450308500745002450044503e8500e6503285080570228500645680670095500c650054500b550034501e85,
  0x00745002450044500a55040570c067008550016500645500970116502b8500545600970034500d6500745002450044503f8500f65033850805702385006451c08700955035850054500b550034502d8500745002450044500a5504057037850085501375006452408701065027850054501b75003450177500745002450044501c7500e6501875080570147500645680670095500c650054500b550034500010,
  0x00745002450044500a55040570c06700855001650064510077011650157500545012750034500d650074500245004451408700f6501975080570258500645300970095501a750054500b55003450167500745002450044500a5504057039850085501f85006454009701065029850054503b850034502f8500745002450044503d8500e6503185080570218500645680670095500c650054500b550034501d85,
  0x00745002450044500a55040570c067008550016500645580970116502c85005456c0970034500d650074500245004450008500f65034850805702485006452008700955036850054500b550034502e8500745002450044500a5504057038850085501375006453809701065028850054501b75003450177500745002450044501c7500e6501875080570147500645680670095500c650054500b5500345780b9,
  0x00745002450044500a55040570c06700855001650064510077011650157500545012750034500d650074500245004451808700f6501975080570268500645280870095501a750054500b55003450167500745002450044500a550405703a85008550208500645480970106502a850054503c85003450308500745002450044503e8500e6503285080570228500645680670095500c650054500b550034501e85,
  0x00745002450044500a55040570c0670085500165006454c0970116502b85005455c0970034500d6500745002450044503f8500f65033850805702385006451c08700955035850054500b550034502d8500745002450044500a5504057037850085501375006452408701065027850054501b75003450177500745002450044501c7500e6501875080570147500645680670095500c650054500b550034500010,
  0x00745002450044500a55040570c06700855001650064510077011650157500545012750034500d650074500245004451408700f65019750805702585006452c0970095501a750054500b55003450167500745002450044500a5504057039850085501f85006453c09701065029850054503b850034502f8500745002450044503d8500e6503185080570218500645680670095500c650054500b550034501d85,
  0x00745002450044500a55040570c067008550016500645540970116502c8500545640970034500d650074500245004450008500f65034850805702485006452008700955036850054500b550034502e8500745002450044500a5504057038850085501375006453409701065028850054501b75003450177500745002450044501c7500e6501875080570147500645680670095500c650054500b5500345900c9,
  0x00745002450044500a55040570c06700855001650064510077011650157500545012750034500d650074500245004451808700f6501975080570268500645280870095501a750054500b55003450167500745002450044500a550405703a85008550208500645440970106502a850054503c85003450308500745002450044503e8500e6503285080570228500645680670095500c650054500b550034501e85,
  0x00745002450044500a55040570c067008550016500645500970116502b8500545600970034500d6500745002450044503f8500f65033850805702385006451c08700955035850054500b550034502d8500745002450044500a5504057037850085501375006452408701065027850054501b75003450177500745002450044501c7500e6501875080570147500645680670095500c650054500b550034500010,
  0x00745002450044500a55040570c06700855001650064510077011650157500545012750034500d650074500245004451408700f6501975080570258500645300970095501a750054500b55003450167500745002450044500a5504057039850085501f85006454009701065029850054503b850034502f8500745002450044503d8500e6503185080570218500645680670095500c650054500b550034501d85,
  0x00745002450044500a55040570c067008550016500645580970116502c85005456c0970034500d650074500245004450008500f65034850805702485006452008700955036850054500b550034502e8500745002450044500a5504057038850085501375006453809701065028850054501b75003450177500745002450044501c7500e6501875080570147500645680670095500c650054500b5500345a00c9,
  0x00745002450044500a55040570c06700855001650064510077011650157500545012750034500d650074500245004451808700f6501975080570268500645280870095501a750054500b55003450167500745002450044500a550405703a85008550208500645480970106502a850054503c85003450308500745002450044503e8500e6503285080570228500645680670095500c650054500b550034501e85]

/-- `t4_1d_black_table`, src/t4_t6_decode_states.h:4288-12482. -/
def tableB : List Nat := [
  0x00226004360032600546002260013600326007560022600436003260064600226001360032600f9600226004360032600546002260013600326008660022600436003260064600226001360032600d8600226004360032600546002260013600326007560022600436003260064600226001360032600a7600226004360032600546002260013600326009660022600436003260064600226001360032600010,
  0x00226004360032600546002260013600326007560022600436003260064600226001360032600c76002260043600326005460022600136003260086600226004360032600646002260013600326011a600226004360032600546002260013600326007560022600436003260064600226001360032600b76002260043600326005460022600136003260096600226004360032600646002260013600326012a6,
  0x002260043600326005460022600136003260075600226004360032600646002260013600326014b6002260043600326005460022600136003260086600226004360032600646002260013600326017b600226004360032600546002260013600326007560022600436003260064600226001360032600a76002260043600326005460022600136003260096600226004360032600646002260013600326700b9,
  0x00226004360032600546002260013600326007560022600436003260064600226001360032600c7600226004360032600546002260013600326008660022600436003260064600226001360032600e8600226004360032600546002260013600326007560022600436003260064600226001360032600b76002260043600326005460022600136003260096600226004360032600646002260013600326019b6,
  0x002260043600326005460022600136003260075600226004360032600646002260013600326080c800226004360032600546002260013600326008660022600436003260064600226001360032600d8600226004360032600546002260013600326007560022600436003260064600226001360032600a7600226004360032600546002260013600326009660022600436003260064600226001360032600010,
  0x00226004360032600546002260013600326007560022600436003260064600226001360032600c7600226004360032600546002260013600326008660022600436003260064600226001360032601ec600226004360032600546002260013600326007560022600436003260064600226001360032600b76002260043600326005460022600136003260096600226004360032600646002260013600326038c6,
  0x002260043600326005460022600136003260075600226004360032600646002260013600326015b6002260043600326005460022600136003260086600226004360032600646002260013600326039c600226004360032600546002260013600326007560022600436003260064600226001360032600a76002260043600326005460022600136003260096600226004360032600646002260013600326740b9,
  0x00226004360032600546002260013600326007560022600436003260064600226001360032600c7600226004360032600546002260013600326008660022600436003260064600226001360032600e8600226004360032600546002260013600326007560022600436003260064600226001360032600b76002260043600326005460022600136003260096600226004360032600646002260013600326036c6,
  0x00226004360032600546002260013600326007560022600436003260064600226001360032600f9600226004360032600546002260013600326008660022600436003260064600226001360032600d8600226004360032600546002260013600326007560022600436003260064600226001360032600a7600226004360032600546002260013600326009660022600436003260064600226001360032600010,
  0x00226004360032600546002260013600326007560022600436003260064600226001360032600c76002260043600326005460022600136003260086600226004360032600646002260013600326030c600226004360032600546002260013600326007560022600436003260064600226001360032600b76002260043600326005460022600136003260096600226004360032600646002260013600326034c6,
  0x002260043600326005460022600136003260075600226004360032600646002260013600326024c600226004360032600546002260013600326008660022600436003260064600226001360032602cc600226004360032600546002260013600326007560022600436003260064600226001360032600a76002260043600326005460022600136003260096600226004360032600646002260013600326840c9,
  0x00226004360032600546002260013600326007560022600436003260064600226001360032600c7600226004360032600546002260013600326008660022600436003260064600226001360032600e8600226004360032600546002260013600326007560022600436003260064600226001360032600b76002260043600326005460022600136003260096600226004360032600646002260013600326180c8,
  0x00226004360032600546002260013600326007560022600436003260064600226001360032601cc600226004360032600546002260013600326008660022600436003260064600226001360032600d8600226004360032600546002260013600326007560022600436003260064600226001360032600a7600226004360032600546002260013600326009660022600436003260064600226001360032600010,
  0x00226004360032600546002260013600326007560022600436003260064600226001360032600c76002260043600326005460022600136003260086600226004360032600646002260013600326028c600226004360032600546002260013600326007560022600436003260064600226001360032600b7600226004360032600546002260013600326009660022600436003260064600226001360032603cc6,
  0x002260043600326005460022600136003260075600226004360032600646002260013600326000a6002260043600326005460022600136003260086600226004360032600646002260013600326010a600226004360032600546002260013600326007560022600436003260064600226001360032600a76002260043600326005460022600136003260096600226004360032600646002260013600326940c9,
  0x00226004360032600546002260013600326007560022600436003260064600226001360032600c7600226004360032600546002260013600326008660022600436003260064600226001360032600e8600226004360032600546002260013600326007560022600436003260064600226001360032600b76002260043600326005460022600136003260096600226004360032600646002260013600326040a8,
  0x00226004360032600546002260013600326007560022600436003260064600226001360032600f9600226004360032600546002260013600326008660022600436003260064600226001360032600d8600226004360032600546002260013600326007560022600436003260064600226001360032600a7600226004360032600546002260013600326009660022600436003260064600226001360032600010,
  0x00226004360032600546002260013600326007560022600436003260064600226001360032600c76002260043600326005460022600136003260086600226004360032600646002260013600326011a600226004360032600546002260013600326007560022600436003260064600226001360032600b76002260043600326005460022600136003260096600226004360032600646002260013600326012a6,
  0x002260043600326005460022600136003260075600226004360032600646002260013600326022c6002260043600326005460022600136003260086600226004360032600646002260013600326032c600226004360032600546002260013600326007560022600436003260064600226001360032600a760022600436003260054600226001360032600966002260043600326006460022600136003267c0c9,
  0x00226004360032600546002260013600326007560022600436003260064600226001360032600c7600226004360032600546002260013600326008660022600436003260064600226001360032600e8600226004360032600546002260013600326007560022600436003260064600226001360032600b76002260043600326005460022600136003260096600226004360032600646002260013600326680d8,
  0x00226004360032600546002260013600326007560022600436003260064600226001360032601ac600226004360032600546002260013600326008660022600436003260064600226001360032600d8600226004360032600546002260013600326007560022600436003260064600226001360032600a7600226004360032600546002260013600326009660022600436003260064600226001360032600010,
  0x00226004360032600546002260013600326007560022600436003260064600226001360032600c76002260043600326005460022600136003260086600226004360032600646002260013600326020c600226004360032600546002260013600326007560022600436003260064600226001360032600b76002260043600326005460022600136003260096600226004360032600646002260013600326580d8,
  0x00226004360032600546002260013600326007560022600436003260064600226001360032602ac600226004360032600546002260013600326008660022600436003260064600226001360032603dc600226004360032600546002260013600326007560022600436003260064600226001360032600a76002260043600326005460022600136003260096600226004360032600646002260013600326780b9,
  0x00226004360032600546002260013600326007560022600436003260064600226001360032600c7600226004360032600546002260013600326008660022600436003260064600226001360032600e8600226004360032600546002260013600326007560022600436003260064600226001360032600b76002260043600326005460022600136003260096600226004360032600646002260013600326400d8,
  0x00226004360032600546002260013600326007560022600436003260064600226001360032600f9600226004360032600546002260013600326008660022600436003260064600226001360032600d8600226004360032600546002260013600326007560022600436003260064600226001360032600a7600226004360032600546002260013600326009660022600436003260064600226001360032600010,
  0x00226004360032600546002260013600326007560022600436003260064600226001360032600c7600226004360032600546002260013600326008660022600436003260064600226001360032603ec600226004360032600546002260013600326007560022600436003260064600226001360032600b76002260043600326005460022600136003260096600226004360032600646002260013600326300d8,
  0x002260043600326005460022600136003260075600226004360032600646002260013600326026c600226004360032600546002260013600326008660022600436003260064600226001360032602ec600226004360032600546002260013600326007560022600436003260064600226001360032600a760022600436003260054600226001360032600966002260043600326006460022600136003268c0c9,
  0x00226004360032600546002260013600326007560022600436003260064600226001360032600c7600226004360032600546002260013600326008660022600436003260064600226001360032600e8600226004360032600546002260013600326007560022600436003260064600226001360032600b76002260043600326005460022600136003260096600226004360032600646002260013600326200d8,
  0x002260043600326005460022600136003260075600226004360032600646002260013600326013b600226004360032600546002260013600326008660022600436003260064600226001360032600d8600226004360032600546002260013600326007560022600436003260064600226001360032600a7600226004360032600546002260013600326009660022600436003260064600226001360032600010,
  0x00226004360032600546002260013600326007560022600436003260064600226001360032600c76002260043600326005460022600136003260086600226004360032600646002260013600326016b600226004360032600546002260013600326007560022600436003260064600226001360032600b76002260043600326005460022600136003260096600226004360032600646002260013600326018b6,
  0x002260043600326005460022600136003260075600226004360032600646002260013600326000a6002260043600326005460022600136003260086600226004360032600646002260013600326010a600226004360032600546002260013600326007560022600436003260064600226001360032600a760022600436003260054600226001360032600966002260043600326006460022600136003269c0c9,
  0x00226004360032600546002260013600326007560022600436003260064600226001360032600c7600226004360032600546002260013600326008660022600436003260064600226001360032600e8600226004360032600546002260013600326007560022600436003260064600226001360032600b76002260043600326005460022600136003260096600226004360032600646002260013600326040a8,
  0x00226004360032600546002260013600326007560022600436003260064600226001360032600f9600226004360032600546002260013600326008660022600436003260064600226001360032600d8600226004360032600546002260013600326007560022600436003260064600226001360032600a76002260043600326005460022600136003260096600226004360032600646002260013600326000ca,
  0x00226004360032600546002260013600326007560022600436003260064600226001360032600c76002260043600326005460022600136003260086600226004360032600646002260013600326011a600226004360032600546002260013600326007560022600436003260064600226001360032600b76002260043600326005460022600136003260096600226004360032600646002260013600326012a6,
  0x002260043600326005460022600136003260075600226004360032600646002260013600326014b6002260043600326005460022600136003260086600226004360032600646002260013600326017b600226004360032600546002260013600326007560022600436003260064600226001360032600a76002260043600326005460022600136003260096600226004360032600646002260013600326700b9,
  0x00226004360032600546002260013600326007560022600436003260064600226001360032600c7600226004360032600546002260013600326008660022600436003260064600226001360032600e8600226004360032600546002260013600326007560022600436003260064600226001360032600b76002260043600326005460022600136003260096600226004360032600646002260013600326019b6,
  0x0022600436003260054600226001360032600756002260043600326006460022600136003260c0c800226004360032600546002260013600326008660022600436003260064600226001360032600d8600226004360032600546002260013600326007560022600436003260064600226001360032600a7600226004360032600546002260013600326009660022600436003260064600226001360032600010,
  0x00226004360032600546002260013600326007560022600436003260064600226001360032600c7600226004360032600546002260013600326008660022600436003260064600226001360032601fc600226004360032600546002260013600326007560022600436003260064600226001360032600b76002260043600326005460022600136003260096600226004360032600646002260013600326500d8,
  0x002260043600326005460022600136003260075600226004360032600646002260013600326015b600226004360032600546002260013600326008660022600436003260064600226001360032603ac600226004360032600546002260013600326007560022600436003260064600226001360032600a76002260043600326005460022600136003260096600226004360032600646002260013600326740b9,
  0x00226004360032600546002260013600326007560022600436003260064600226001360032600c7600226004360032600546002260013600326008660022600436003260064600226001360032600e8600226004360032600546002260013600326007560022600436003260064600226001360032600b76002260043600326005460022600136003260096600226004360032600646002260013600326380d8,
  0x00226004360032600546002260013600326007560022600436003260064600226001360032600f9600226004360032600546002260013600326008660022600436003260064600226001360032600d8600226004360032600546002260013600326007560022600436003260064600226001360032600a7600226004360032600546002260013600326009660022600436003260064600226001360032600010,
  0x00226004360032600546002260013600326007560022600436003260064600226001360032600c76002260043600326005460022600136003260086600226004360032600646002260013600326031c600226004360032600546002260013600326007560022600436003260064600226001360032600b76002260043600326005460022600136003260096600226004360032600646002260013600326280d8,
  0x002260043600326005460022600136003260075600226004360032600646002260013600326025c600226004360032600546002260013600326008660022600436003260064600226001360032602dc600226004360032600546002260013600326007560022600436003260064600226001360032600a76002260043600326005460022600136003260096600226004360032600646002260013600326880c9,
  0x00226004360032600546002260013600326007560022600436003260064600226001360032600c7600226004360032600546002260013600326008660022600436003260064600226001360032600e8600226004360032600546002260013600326007560022600436003260064600226001360032600b760022600436003260054600226001360032600966002260043600326006460022600136003261c0c8,
  0x00226004360032600546002260013600326007560022600436003260064600226001360032601dc600226004360032600546002260013600326008660022600436003260064600226001360032600d8600226004360032600546002260013600326007560022600436003260064600226001360032600a7600226004360032600546002260013600326009660022600436003260064600226001360032600010,
  0x00226004360032600546002260013600326007560022600436003260064600226001360032600c76002260043600326005460022600136003260086600226004360032600646002260013600326029c600226004360032600546002260013600326007560022600436003260064600226001360032600b76002260043600326005460022600136003260096600226004360032600646002260013600326600d8,
  0x002260043600326005460022600136003260075600226004360032600646002260013600326000a6002260043600326005460022600136003260086600226004360032600646002260013600326010a600226004360032600546002260013600326007560022600436003260064600226001360032600a76002260043600326005460022600136003260096600226004360032600646002260013600326980c9,
  0x00226004360032600546002260013600326007560022600436003260064600226001360032600c7600226004360032600546002260013600326008660022600436003260064600226001360032600e8600226004360032600546002260013600326007560022600436003260064600226001360032600b76002260043600326005460022600136003260096600226004360032600646002260013600326040a8,
  0x00226004360032600546002260013600326007560022600436003260064600226001360032600f9600226004360032600546002260013600326008660022600436003260064600226001360032600d8600226004360032600546002260013600326007560022600436003260064600226001360032600a7600226004360032600546002260013600326009660022600436003260064600226001360032600010,
  0x00226004360032600546002260013600326007560022600436003260064600226001360032600c76002260043600326005460022600136003260086600226004360032600646002260013600326011a600226004360032600546002260013600326007560022600436003260064600226001360032600b76002260043600326005460022600136003260096600226004360032600646002260013600326012a6,
  0x002260043600326005460022600136003260075600226004360032600646002260013600326023c6002260043600326005460022600136003260086600226004360032600646002260013600326033c600226004360032600546002260013600326007560022600436003260064600226001360032600a76002260043600326005460022600136003260096600226004360032600646002260013600326800c9,
  0x00226004360032600546002260013600326007560022600436003260064600226001360032600c7600226004360032600546002260013600326008660022600436003260064600226001360032600e8600226004360032600546002260013600326007560022600436003260064600226001360032600b76002260043600326005460022600136003260096600226004360032600646002260013600326140c8,
  0x00226004360032600546002260013600326007560022600436003260064600226001360032601bc600226004360032600546002260013600326008660022600436003260064600226001360032600d8600226004360032600546002260013600326007560022600436003260064600226001360032600a7600226004360032600546002260013600326009660022600436003260064600226001360032600010,
  0x00226004360032600546002260013600326007560022600436003260064600226001360032600c76002260043600326005460022600136003260086600226004360032600646002260013600326021c600226004360032600546002260013600326007560022600436003260064600226001360032600b7600226004360032600546002260013600326009660022600436003260064600226001360032603bc6,
  0x00226004360032600546002260013600326007560022600436003260064600226001360032602bc6002260043600326005460022600136003260086600226004360032600646002260013600326100c800226004360032600546002260013600326007560022600436003260064600226001360032600a76002260043600326005460022600136003260096600226004360032600646002260013600326780b9,
  0x00226004360032600546002260013600326007560022600436003260064600226001360032600c7600226004360032600546002260013600326008660022600436003260064600226001360032600e8600226004360032600546002260013600326007560022600436003260064600226001360032600b76002260043600326005460022600136003260096600226004360032600646002260013600326480d8,
  0x00226004360032600546002260013600326007560022600436003260064600226001360032600f9600226004360032600546002260013600326008660022600436003260064600226001360032600d8600226004360032600546002260013600326007560022600436003260064600226001360032600a7600226004360032600546002260013600326009660022600436003260064600226001360032600010,
  0x00226004360032600546002260013600326007560022600436003260064600226001360032600c7600226004360032600546002260013600326008660022600436003260064600226001360032603fc600226004360032600546002260013600326007560022600436003260064600226001360032600b76002260043600326005460022600136003260096600226004360032600646002260013600326037c6,
  0x002260043600326005460022600136003260075600226004360032600646002260013600326027c600226004360032600546002260013600326008660022600436003260064600226001360032602fc600226004360032600546002260013600326007560022600436003260064600226001360032600a76002260043600326005460022600136003260096600226004360032600646002260013600326900c9,
  0x00226004360032600546002260013600326007560022600436003260064600226001360032600c7600226004360032600546002260013600326008660022600436003260064600226001360032600e8600226004360032600546002260013600326007560022600436003260064600226001360032600b76002260043600326005460022600136003260096600226004360032600646002260013600326035c6,
  0x002260043600326005460022600136003260075600226004360032600646002260013600326013b600226004360032600546002260013600326008660022600436003260064600226001360032600d8600226004360032600546002260013600326007560022600436003260064600226001360032600a7600226004360032600546002260013600326009660022600436003260064600226001360032600010,
  0x00226004360032600546002260013600326007560022600436003260064600226001360032600c76002260043600326005460022600136003260086600226004360032600646002260013600326016b600226004360032600546002260013600326007560022600436003260064600226001360032600b76002260043600326005460022600136003260096600226004360032600646002260013600326018b6,
  0x002260043600326005460022600136003260075600226004360032600646002260013600326000a6002260043600326005460022600136003260086600226004360032600646002260013600326010a600226004360032600546002260013600326007560022600436003260064600226001360032600a76002260043600326005460022600136003260096600226004360032600646002260013600326a00c9,
  0x00226004360032600546002260013600326007560022600436003260064600226001360032600c7600226004360032600546002260013600326008660022600436003260064600226001360032600e8600226004360032600546002260013600326007560022600436003260064600226001360032600b76002260043600326005460022600136003260096600226004360032600646002260013600326040a8,
  0x00226004360032600546002260013600326007560022600436003260064600226001360032600f9600226004360032600546002260013600326008660022600436003260064600226001360032600d8600226004360032600546002260013600326007560022600436003260064600226001360032600a7600226004360032600546002260013600326009660022600436003260064600226001360032600010,
  0x00226004360032600546002260013600326007560022600436003260064600226001360032600c76002260043600326005460022600136003260086600226004360032600646002260013600326011a600226004360032600546002260013600326007560022600436003260064600226001360032600b76002260043600326005460022600136003260096600226004360032600646002260013600326012a6,
  0x002260043600326005460022600136003260075600226004360032600646002260013600326014b6002260043600326005460022600136003260086600226004360032600646002260013600326017b600226004360032600546002260013600326007560022600436003260064600226001360032600a76002260043600326005460022600136003260096600226004360032600646002260013600326700b9,
  0x00226004360032600546002260013600326007560022600436003260064600226001360032600c7600226004360032600546002260013600326008660022600436003260064600226001360032600e8600226004360032600546002260013600326007560022600436003260064600226001360032600b76002260043600326005460022600136003260096600226004360032600646002260013600326019b6,
  0x002260043600326005460022600136003260075600226004360032600646002260013600326080c800226004360032600546002260013600326008660022600436003260064600226001360032600d8600226004360032600546002260013600326007560022600436003260064600226001360032600a7600226004360032600546002260013600326009660022600436003260064600226001360032600010,
  0x00226004360032600546002260013600326007560022600436003260064600226001360032600c7600226004360032600546002260013600326008660022600436003260064600226001360032601ec600226004360032600546002260013600326007560022600436003260064600226001360032600b76002260043600326005460022600136003260096600226004360032600646002260013600326038c6,
  0x002260043600326005460022600136003260075600226004360032600646002260013600326015b6002260043600326005460022600136003260086600226004360032600646002260013600326039c600226004360032600546002260013600326007560022600436003260064600226001360032600a76002260043600326005460022600136003260096600226004360032600646002260013600326740b9,
  0x00226004360032600546002260013600326007560022600436003260064600226001360032600c7600226004360032600546002260013600326008660022600436003260064600226001360032600e8600226004360032600546002260013600326007560022600436003260064600226001360032600b76002260043600326005460022600136003260096600226004360032600646002260013600326036c6,
  0x00226004360032600546002260013600326007560022600436003260064600226001360032600f9600226004360032600546002260013600326008660022600436003260064600226001360032600d8600226004360032600546002260013600326007560022600436003260064600226001360032600a7600226004360032600546002260013600326009660022600436003260064600226001360032600010,
  0x00226004360032600546002260013600326007560022600436003260064600226001360032600c76002260043600326005460022600136003260086600226004360032600646002260013600326030c600226004360032600546002260013600326007560022600436003260064600226001360032600b76002260043600326005460022600136003260096600226004360032600646002260013600326034c6,
  0x002260043600326005460022600136003260075600226004360032600646002260013600326024c600226004360032600546002260013600326008660022600436003260064600226001360032602cc600226004360032600546002260013600326007560022600436003260064600226001360032600a76002260043600326005460022600136003260096600226004360032600646002260013600326840c9,
  0x00226004360032600546002260013600326007560022600436003260064600226001360032600c7600226004360032600546002260013600326008660022600436003260064600226001360032600e8600226004360032600546002260013600326007560022600436003260064600226001360032600b76002260043600326005460022600136003260096600226004360032600646002260013600326180c8,
  0x00226004360032600546002260013600326007560022600436003260064600226001360032601cc600226004360032600546002260013600326008660022600436003260064600226001360032600d8600226004360032600546002260013600326007560022600436003260064600226001360032600a7600226004360032600546002260013600326009660022600436003260064600226001360032600010,
  0x00226004360032600546002260013600326007560022600436003260064600226001360032600c76002260043600326005460022600136003260086600226004360032600646002260013600326028c600226004360032600546002260013600326007560022600436003260064600226001360032600b7600226004360032600546002260013600326009660022600436003260064600226001360032603cc6,
  0x002260043600326005460022600136003260075600226004360032600646002260013600326000a6002260043600326005460022600136003260086600226004360032600646002260013600326010a600226004360032600546002260013600326007560022600436003260064600226001360032600a76002260043600326005460022600136003260096600226004360032600646002260013600326940c9,
  0x00226004360032600546002260013600326007560022600436003260064600226001360032600c7600226004360032600546002260013600326008660022600436003260064600226001360032600e8600226004360032600546002260013600326007560022600436003260064600226001360032600b76002260043600326005460022600136003260096600226004360032600646002260013600326040a8,
  0x00226004360032600546002260013600326007560022600436003260064600226001360032600f9600226004360032600546002260013600326008660022600436003260064600226001360032600d8600226004360032600546002260013600326007560022600436003260064600226001360032600a7600226004360032600546002260013600326009660022600436003260064600226001360032600010,
  0x00226004360032600546002260013600326007560022600436003260064600226001360032600c76002260043600326005460022600136003260086600226004360032600646002260013600326011a600226004360032600546002260013600326007560022600436003260064600226001360032600b76002260043600326005460022600136003260096600226004360032600646002260013600326012a6,
  0x002260043600326005460022600136003260075600226004360032600646002260013600326022c6002260043600326005460022600136003260086600226004360032600646002260013600326032c600226004360032600546002260013600326007560022600436003260064600226001360032600a760022600436003260054600226001360032600966002260043600326006460022600136003267c0c9,
  0x00226004360032600546002260013600326007560022600436003260064600226001360032600c7600226004360032600546002260013600326008660022600436003260064600226001360032600e8600226004360032600546002260013600326007560022600436003260064600226001360032600b760022600436003260054600226001360032600966002260043600326006460022600136003266c0d8,
  0x00226004360032600546002260013600326007560022600436003260064600226001360032601ac600226004360032600546002260013600326008660022600436003260064600226001360032600d8600226004360032600546002260013600326007560022600436003260064600226001360032600a7600226004360032600546002260013600326009660022600436003260064600226001360032600010,
  0x00226004360032600546002260013600326007560022600436003260064600226001360032600c76002260043600326005460022600136003260086600226004360032600646002260013600326020c600226004360032600546002260013600326007560022600436003260064600226001360032600b760022600436003260054600226001360032600966002260043600326006460022600136003265c0d8,
  0x00226004360032600546002260013600326007560022600436003260064600226001360032602ac600226004360032600546002260013600326008660022600436003260064600226001360032603dc600226004360032600546002260013600326007560022600436003260064600226001360032600a76002260043600326005460022600136003260096600226004360032600646002260013600326780b9,
  0x00226004360032600546002260013600326007560022600436003260064600226001360032600c7600226004360032600546002260013600326008660022600436003260064600226001360032600e8600226004360032600546002260013600326007560022600436003260064600226001360032600b76002260043600326005460022600136003260096600226004360032600646002260013600326440d8,
  0x00226004360032600546002260013600326007560022600436003260064600226001360032600f9600226004360032600546002260013600326008660022600436003260064600226001360032600d8600226004360032600546002260013600326007560022600436003260064600226001360032600a7600226004360032600546002260013600326009660022600436003260064600226001360032600010,
  0x00226004360032600546002260013600326007560022600436003260064600226001360032600c7600226004360032600546002260013600326008660022600436003260064600226001360032603ec600226004360032600546002260013600326007560022600436003260064600226001360032600b76002260043600326005460022600136003260096600226004360032600646002260013600326340d8,
  0x002260043600326005460022600136003260075600226004360032600646002260013600326026c600226004360032600546002260013600326008660022600436003260064600226001360032602ec600226004360032600546002260013600326007560022600436003260064600226001360032600a760022600436003260054600226001360032600966002260043600326006460022600136003268c0c9,
  0x00226004360032600546002260013600326007560022600436003260064600226001360032600c7600226004360032600546002260013600326008660022600436003260064600226001360032600e8600226004360032600546002260013600326007560022600436003260064600226001360032600b76002260043600326005460022600136003260096600226004360032600646002260013600326240d8,
  0x002260043600326005460022600136003260075600226004360032600646002260013600326013b600226004360032600546002260013600326008660022600436003260064600226001360032600d8600226004360032600546002260013600326007560022600436003260064600226001360032600a7600226004360032600546002260013600326009660022600436003260064600226001360032600010,
  0x00226004360032600546002260013600326007560022600436003260064600226001360032600c76002260043600326005460022600136003260086600226004360032600646002260013600326016b600226004360032600546002260013600326007560022600436003260064600226001360032600b76002260043600326005460022600136003260096600226004360032600646002260013600326018b6,
  0x002260043600326005460022600136003260075600226004360032600646002260013600326000a6002260043600326005460022600136003260086600226004360032600646002260013600326010a600226004360032600546002260013600326007560022600436003260064600226001360032600a760022600436003260054600226001360032600966002260043600326006460022600136003269c0c9,
  0x00226004360032600546002260013600326007560022600436003260064600226001360032600c7600226004360032600546002260013600326008660022600436003260064600226001360032600e8600226004360032600546002260013600326007560022600436003260064600226001360032600b76002260043600326005460022600136003260096600226004360032600646002260013600326040a8,
  0x00226004360032600546002260013600326007560022600436003260064600226001360032600f9600226004360032600546002260013600326008660022600436003260064600226001360032600d8600226004360032600546002260013600326007560022600436003260064600226001360032600a76002260043600326005460022600136003260096600226004360032600646002260013600326000ca,
  0x00226004360032600546002260013600326007560022600436003260064600226001360032600c76002260043600326005460022600136003260086600226004360032600646002260013600326011a600226004360032600546002260013600326007560022600436003260064600226001360032600b76002260043600326005460022600136003260096600226004360032600646002260013600326012a6,
  0x002260043600326005460022600136003260075600226004360032600646002260013600326014b6002260043600326005460022600136003260086600226004360032600646002260013600326017b600226004360032600546002260013600326007560022600436003260064600226001360032600a76002260043600326005460022600136003260096600226004360032600646002260013600326700b9,
  0x00226004360032600546002260013600326007560022600436003260064600226001360032600c7600226004360032600546002260013600326008660022600436003260064600226001360032600e8600226004360032600546002260013600326007560022600436003260064600226001360032600b76002260043600326005460022600136003260096600226004360032600646002260013600326019b6,
  0x0022600436003260054600226001360032600756002260043600326006460022600136003260c0c800226004360032600546002260013600326008660022600436003260064600226001360032600d8600226004360032600546002260013600326007560022600436003260064600226001360032600a7600226004360032600546002260013600326009660022600436003260064600226001360032600010,
  0x00226004360032600546002260013600326007560022600436003260064600226001360032600c7600226004360032600546002260013600326008660022600436003260064600226001360032601fc600226004360032600546002260013600326007560022600436003260064600226001360032600b76002260043600326005460022600136003260096600226004360032600646002260013600326540d8,
  0x002260043600326005460022600136003260075600226004360032600646002260013600326015b600226004360032600546002260013600326008660022600436003260064600226001360032603ac600226004360032600546002260013600326007560022600436003260064600226001360032600a76002260043600326005460022600136003260096600226004360032600646002260013600326740b9,
  0x00226004360032600546002260013600326007560022600436003260064600226001360032600c7600226004360032600546002260013600326008660022600436003260064600226001360032600e8600226004360032600546002260013600326007560022600436003260064600226001360032600b760022600436003260054600226001360032600966002260043600326006460022600136003263c0d8,
  0x00226004360032600546002260013600326007560022600436003260064600226001360032600f9600226004360032600546002260013600326008660022600436003260064600226001360032600d8600226004360032600546002260013600326007560022600436003260064600226001360032600a7600226004360032600546002260013600326009660022600436003260064600226001360032600010,
  0x00226004360032600546002260013600326007560022600436003260064600226001360032600c76002260043600326005460022600136003260086600226004360032600646002260013600326031c600226004360032600546002260013600326007560022600436003260064600226001360032600b760022600436003260054600226001360032600966002260043600326006460022600136003262c0d8,
  0x002260043600326005460022600136003260075600226004360032600646002260013600326025c600226004360032600546002260013600326008660022600436003260064600226001360032602dc600226004360032600546002260013600326007560022600436003260064600226001360032600a76002260043600326005460022600136003260096600226004360032600646002260013600326880c9,
  0x00226004360032600546002260013600326007560022600436003260064600226001360032600c7600226004360032600546002260013600326008660022600436003260064600226001360032600e8600226004360032600546002260013600326007560022600436003260064600226001360032600b760022600436003260054600226001360032600966002260043600326006460022600136003261c0c8,
  0x00226004360032600546002260013600326007560022600436003260064600226001360032601dc600226004360032600546002260013600326008660022600436003260064600226001360032600d8600226004360032600546002260013600326007560022600436003260064600226001360032600a7600226004360032600546002260013600326009660022600436003260064600226001360032600010,
  0x00226004360032600546002260013600326007560022600436003260064600226001360032600c76002260043600326005460022600136003260086600226004360032600646002260013600326029c600226004360032600546002260013600326007560022600436003260064600226001360032600b76002260043600326005460022600136003260096600226004360032600646002260013600326640d8,
  0x002260043600326005460022600136003260075600226004360032600646002260013600326000a6002260043600326005460022600136003260086600226004360032600646002260013600326010a600226004360032600546002260013600326007560022600436003260064600226001360032600a76002260043600326005460022600136003260096600226004360032600646002260013600326980c9,
  0x00226004360032600546002260013600326007560022600436003260064600226001360032600c7600226004360032600546002260013600326008660022600436003260064600226001360032600e8600226004360032600546002260013600326007560022600436003260064600226001360032600b76002260043600326005460022600136003260096600226004360032600646002260013600326040a8,
  0x00226004360032600546002260013600326007560022600436003260064600226001360032600f9600226004360032600546002260013600326008660022600436003260064600226001360032600d8600226004360032600546002260013600326007560022600436003260064600226001360032600a7600226004360032600546002260013600326009660022600436003260064600226001360032600010,
  0x00226004360032600546002260013600326007560022600436003260064600226001360032600c76002260043600326005460022600136003260086600226004360032600646002260013600326011a600226004360032600546002260013600326007560022600436003260064600226001360032600b76002260043600326005460022600136003260096600226004360032600646002260013600326012a6,
  0x002260043600326005460022600136003260075600226004360032600646002260013600326023c6002260043600326005460022600136003260086600226004360032600646002260013600326033c600226004360032600546002260013600326007560022600436003260064600226001360032600a76002260043600326005460022600136003260096600226004360032600646002260013600326800c9,
  0x00226004360032600546002260013600326007560022600436003260064600226001360032600c7600226004360032600546002260013600326008660022600436003260064600226001360032600e8600226004360032600546002260013600326007560022600436003260064600226001360032600b76002260043600326005460022600136003260096600226004360032600646002260013600326140c8,
  0x00226004360032600546002260013600326007560022600436003260064600226001360032601bc600226004360032600546002260013600326008660022600436003260064600226001360032600d8600226004360032600546002260013600326007560022600436003260064600226001360032600a7600226004360032600546002260013600326009660022600436003260064600226001360032600010,
  0x00226004360032600546002260013600326007560022600436003260064600226001360032600c76002260043600326005460022600136003260086600226004360032600646002260013600326021c600226004360032600546002260013600326007560022600436003260064600226001360032600b7600226004360032600546002260013600326009660022600436003260064600226001360032603bc6,
  0x00226004360032600546002260013600326007560022600436003260064600226001360032602bc6002260043600326005460022600136003260086600226004360032600646002260013600326100c800226004360032600546002260013600326007560022600436003260064600226001360032600a76002260043600326005460022600136003260096600226004360032600646002260013600326780b9,
  0x00226004360032600546002260013600326007560022600436003260064600226001360032600c7600226004360032600546002260013600326008660022600436003260064600226001360032600e8600226004360032600546002260013600326007560022600436003260064600226001360032600b760022600436003260054600226001360032600966002260043600326006460022600136003264c0d8,
  0x00226004360032600546002260013600326007560022600436003260064600226001360032600f9600226004360032600546002260013600326008660022600436003260064600226001360032600d8600226004360032600546002260013600326007560022600436003260064600226001360032600a7600226004360032600546002260013600326009660022600436003260064600226001360032600010,
  0x00226004360032600546002260013600326007560022600436003260064600226001360032600c7600226004360032600546002260013600326008660022600436003260064600226001360032603fc600226004360032600546002260013600326007560022600436003260064600226001360032600b76002260043600326005460022600136003260096600226004360032600646002260013600326037c6,
  0x002260043600326005460022600136003260075600226004360032600646002260013600326027c600226004360032600546002260013600326008660022600436003260064600226001360032602fc600226004360032600546002260013600326007560022600436003260064600226001360032600a76002260043600326005460022600136003260096600226004360032600646002260013600326900c9,
  0x00226004360032600546002260013600326007560022600436003260064600226001360032600c7600226004360032600546002260013600326008660022600436003260064600226001360032600e8600226004360032600546002260013600326007560022600436003260064600226001360032600b76002260043600326005460022600136003260096600226004360032600646002260013600326035c6,
  0x002260043600326005460022600136003260075600226004360032600646002260013600326013b600226004360032600546002260013600326008660022600436003260064600226001360032600d8600226004360032600546002260013600326007560022600436003260064600226001360032600a7600226004360032600546002260013600326009660022600436003260064600226001360032600010,
  0x00226004360032600546002260013600326007560022600436003260064600226001360032600c76002260043600326005460022600136003260086600226004360032600646002260013600326016b600226004360032600546002260013600326007560022600436003260064600226001360032600b76002260043600326005460022600136003260096600226004360032600646002260013600326018b6,
  0x002260043600326005460022600136003260075600226004360032600646002260013600326000a6002260043600326005460022600136003260086600226004360032600646002260013600326010a600226004360032600546002260013600326007560022600436003260064600226001360032600a76002260043600326005460022600136003260096600226004360032600646002260013600326a00c9,
  0x00226004360032600546002260013600326007560022600436003260064600226001360032600c7600226004360032600546002260013600326008660022600436003260064600226001360032600e8600226004360032600546002260013600326007560022600436003260064600226001360032600b76002260043600326005460022600136003260096600226004360032600646002260013600326040a8]

/-- The digits of an entry. -/
def entry (t : List Nat) (i : Nat) : Nat := t.getD (i / 64) 0 / 2 ^ (20 * (i % 64)) % 2 ^ 20

/-- The state of an entry, src/t4_t6_decode_states.h:30-43. -/
inductive St where
  | null | pass | horiz | vert | ext | termW | termB | makeUpW | makeUpB | makeUp | eol
deriving DecidableEq

def st (e : Nat) : St :=
  match e % 16 with
  | 0 => .null
  | 1 => .pass
  | 2 => .horiz
  | 3 => .vert
  | 4 => .ext
  | 5 => .termW
  | 6 => .termB
  | 7 => .makeUpW
  | 8 => .makeUpB
  | 9 => .makeUp
  | _ => .eol

/-- The width of the code of an entry. -/
def width (e : Nat) : Nat := e / 16 % 16

/-- The parameter of an entry of the one dimensional tables. -/
def param (e : Nat) : Nat := e / 256

/-- The parameter of an entry of the two dimensional table. -/
def vparam (e : Nat) : Int := (e / 256 : Nat) - 3

end T4
