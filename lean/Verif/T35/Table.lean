/-!
# Countries, makers and machines

The tables of `t35.c`, as they are there.  The rows of zeros and NULLs which end the lists of makers and machines are left out.
-/

namespace T35

/-- `model_data_t`: /repo/src/t35.c:75-83. -/
structure Machine where
  size : Nat
  id : List Nat
  name : String
  deriving DecidableEq, Repr

/-- `nsf_data_t`: /repo/src/t35.c:86-98, without the order of a station's identity, which nothing here uses. -/
structure Maker where
  id : List Nat
  len : Nat
  name : Option String
  machines : List Machine
  deriving DecidableEq, Repr

/-- `country_code_t`: /repo/src/t35.c:101-107. -/
structure Country where
  name : Option String
  makers : List Maker
  deriving DecidableEq, Repr

/-- `Canon`: /repo/src/t35.c:109-116. -/
def mCanon : List Machine := [
  ⟨5, [0x80, 0x00, 0x80, 0x48, 0x00], "Faxphone B640"⟩,
  ⟨5, [0x80, 0x00, 0x80, 0x49, 0x10], "Fax B100"⟩,
  ⟨5, [0x80, 0x00, 0x8A, 0x49, 0x10], "Laser Class 9000 Series"⟩,
  ⟨5, [0x80, 0x00, 0x8A, 0x48, 0x00], "Laser Class 2060"⟩]

/-- `Brother`: /repo/src/t35.c:118-124. -/
def mBrother : List Machine := [
  ⟨9, [0x55, 0x55, 0x00, 0x88, 0x90, 0x80, 0x5F, 0x00, 0x15, 0x51], "Intellifax 770"⟩,
  ⟨9, [0x55, 0x55, 0x00, 0x80, 0xB0, 0x80, 0x00, 0x00, 0x59, 0xD4], "Personal fax 190"⟩,
  ⟨9, [0x55, 0x55, 0x00, 0x8C, 0x90, 0x80, 0xF0, 0x02, 0x20], "MFC-8600"⟩]

/-- `Panasonic0E`: /repo/src/t35.c:126-134. -/
def mPanasonic0E : List Machine := [
  ⟨10, [0x00, 0x00, 0x00, 0x96, 0x0F, 0x01, 0x02, 0x00, 0x10, 0x05, 0x02, 0x95, 0xC8, 0x08, 0x01, 0x49, 0x02, 0x41, 0x53, 0x54, 0x47], "KX-F90"⟩,
  ⟨10, [0x00, 0x00, 0x00, 0x96, 0x0F, 0x01, 0x03, 0x00, 0x10, 0x05, 0x02, 0x95, 0xC8, 0x08, 0x01, 0x49, 0x02, 0x03], "KX-F230 or KX-FT21 or ..."⟩,
  ⟨10, [0x00, 0x00, 0x00, 0x16, 0x0F, 0x01, 0x03, 0x00, 0x10, 0x05, 0x02, 0x95, 0xC8, 0x08], "KX-F780"⟩,
  ⟨10, [0x00, 0x00, 0x00, 0x16, 0x0F, 0x01, 0x03, 0x00, 0x10, 0x00, 0x02, 0x95, 0x80, 0x08, 0x75, 0xB5], "KX-M260"⟩,
  ⟨10, [0x00, 0x00, 0x00, 0x16, 0x0F, 0x01, 0x02, 0x00, 0x10, 0x05, 0x02, 0x85, 0xC8, 0x08, 0xAD], "KX-F2050BS"⟩]

/-- `Panasonic79`: /repo/src/t35.c:136-142. -/
def mPanasonic79 : List Machine := [
  ⟨10, [0x00, 0x00, 0x00, 0x02, 0x0F, 0x09, 0x12, 0x00, 0x10, 0x05, 0x02, 0x95, 0xC8, 0x88, 0x80, 0x80, 0x01], "UF-S10"⟩,
  ⟨10, [0x00, 0x00, 0x00, 0x16, 0x7F, 0x09, 0x13, 0x00, 0x10, 0x05, 0x16, 0x8D, 0xC0, 0xD0, 0xF8, 0x80, 0x01], "/Siemens Fax 940"⟩,
  ⟨10, [0x00, 0x00, 0x00, 0x16, 0x0F, 0x09, 0x13, 0x00, 0x10, 0x05, 0x06, 0x8D, 0xC0, 0x50, 0xCB], "Panafax UF-321"⟩]

/-- `Ricoh`: /repo/src/t35.c:144-148. -/
def mRicoh : List Machine := [
  ⟨10, [0x00, 0x00, 0x00, 0x12, 0x10, 0x0D, 0x02, 0x00, 0x50, 0x00, 0x2A, 0xB8, 0x2C], "/Nashuatec P394"⟩]

/-- `Samsung16`: /repo/src/t35.c:150-154. -/
def mSamsung16 : List Machine := [
  ⟨4, [0x00, 0x00, 0xA4, 0x01], "M545 6800"⟩]

/-- `Samsung5A`: /repo/src/t35.c:156-160. -/
def mSamsung5A : List Machine := [
  ⟨4, [0x00, 0x00, 0xC0, 0x00], "SF-5100"⟩]

/-- `Samsung8C`: /repo/src/t35.c:162-166. -/
def mSamsung8C : List Machine := [
  ⟨4, [0x00, 0x00, 0x01, 0x00], "SF-2010"⟩]

/-- `SamsungA2`: /repo/src/t35.c:168-172. -/
def mSamsungA2 : List Machine := [
  ⟨4, [0x00, 0x00, 0x80, 0x00], "FX-4000"⟩]

/-- `Sanyo`: /repo/src/t35.c:174-179. -/
def mSanyo : List Machine := [
  ⟨10, [0x00, 0x00, 0x10, 0xB1, 0x04, 0x04, 0x04, 0x04, 0x04, 0x04, 0x04, 0x04, 0x04, 0x04, 0x04, 0x04, 0x04, 0x04, 0x04, 0x04, 0x04, 0x04, 0x04, 0x04, 0x04, 0x04, 0x04, 0x04, 0xFF, 0xFF, 0xFF, 0xFF, 0xFF, 0xFF, 0xFF, 0xFF, 0x41, 0x26, 0xFF, 0xFF, 0x00, 0x00, 0x85, 0xA1], "SFX-107"⟩,
  ⟨10, [0x00, 0x00, 0x00, 0xB1, 0x12, 0xF2, 0x62, 0xB4, 0x82, 0x0A, 0xF2, 0x2A, 0x12, 0xD2, 0xA2, 0x04, 0x04, 0x04, 0x04, 0x04, 0x04, 0x04, 0x04, 0x04, 0x04, 0x04, 0x04, 0x04, 0xFF, 0xFF, 0xFF, 0xFF, 0xFF, 0xFF, 0xFF, 0xFF, 0x41, 0x4E, 0xFF, 0xFF, 0x00, 0x00], "MFP-510"⟩]

/-- `HP`: /repo/src/t35.c:181-188. -/
def mHP : List Machine := [
  ⟨5, [0x20, 0x00, 0x45, 0x00, 0x0C, 0x04, 0x70, 0xCD, 0x4F, 0x00, 0x7F, 0x49], "LaserJet 3150"⟩,
  ⟨5, [0x40, 0x80, 0x84, 0x01, 0xF0, 0x6A], "OfficeJet"⟩,
  ⟨5, [0xC0, 0x00, 0x00, 0x00, 0x00], "OfficeJet 500"⟩,
  ⟨5, [0xC0, 0x00, 0x00, 0x00, 0x00, 0x8B], "Fax-920"⟩]

/-- `Sharp`: /repo/src/t35.c:190-197. -/
def mSharp : List Machine := [
  ⟨32, [0x00, 0xCE, 0xB8, 0x80, 0x80, 0x11, 0x85, 0x0D, 0xDD, 0x00, 0x00, 0xDD, 0xDD, 0x00, 0x00, 0xDD, 0xDD, 0x00, 0x00, 0x00, 0x00, 0x00, 0x00, 0x00, 0x00, 0xED, 0x22, 0xB0, 0x00, 0x00, 0x90, 0x00], "Sharp F0-10"⟩,
  ⟨33, [0x00, 0xCE, 0xB8, 0x80, 0x80, 0x11, 0x85, 0x0D, 0xDD, 0x00, 0x00, 0xDD, 0xDD, 0x00, 0x00, 0xDD, 0xDD, 0x00, 0x00, 0x00, 0x00, 0x00, 0x00, 0x00, 0x00, 0xED, 0x22, 0xB0, 0x00, 0x00, 0x90, 0x00, 0x8C], "Sharp UX-460"⟩,
  ⟨33, [0x00, 0x4E, 0xB8, 0x80, 0x80, 0x11, 0x84, 0x0D, 0xDD, 0x00, 0x00, 0xDD, 0xDD, 0x00, 0x00, 0xDD, 0xDD, 0x00, 0x00, 0x00, 0x00, 0x00, 0x00, 0x00, 0x00, 0xED, 0x22, 0xB0, 0x00, 0x00, 0x90, 0x00, 0xAD], "Sharp UX-177"⟩,
  ⟨33, [0x00, 0xCE, 0xB8, 0x00, 0x84, 0x0D, 0xDD, 0x00, 0x00, 0xDD, 0xDD, 0x00, 0x00, 0xDD, 0xDD, 0xDD, 0xDD, 0xDD, 0x02, 0x05, 0x28, 0x02, 0x22, 0x43, 0x29, 0xED, 0x23, 0x90, 0x00, 0x00, 0x90, 0x01, 0x00], "Sharp FO-4810"⟩]

/-- `Xerox`: /repo/src/t35.c:199-203. -/
def mXerox : List Machine := [
  ⟨10, [0x00, 0x08, 0x2D, 0x43, 0x57, 0x50, 0x61, 0x75, 0xFF, 0xFF, 0xFF, 0xFF, 0xFF, 0xFF, 0xFF, 0x01, 0x1A, 0x02, 0x02, 0x10, 0x01, 0x82, 0x01, 0x30, 0x34], "635 Workcenter"⟩]

/-- `XeroxDA`: /repo/src/t35.c:205-209. -/
def mXeroxDA : List Machine := [
  ⟨4, [0x00, 0x00, 0xC0, 0x00], "Workcentre Pro 580"⟩]

/-- `Lexmark`: /repo/src/t35.c:211-215. -/
def mLexmark : List Machine := [
  ⟨4, [0x00, 0x80, 0xA0, 0x00], "X4270"⟩]

/-- `JetFax`: /repo/src/t35.c:217-221. -/
def mJetFax : List Machine := [
  ⟨6, [0x01, 0x00, 0x45, 0x00, 0x0D, 0x7F], "M910e"⟩]

/-- `PitneyBowes`: /repo/src/t35.c:223-227. -/
def mPitneyBowes : List Machine := [
  ⟨6, [0x79, 0x91, 0xB1, 0xB8, 0x7A, 0xD8], "9550"⟩]

/-- `Dialogic`: /repo/src/t35.c:229-233. -/
def mDialogic : List Machine := [
  ⟨8, [0x56, 0x8B, 0x06, 0x55, 0x00, 0x15, 0x00, 0x00], "VFX/40ESC"⟩]

/-- `Muratec45`: /repo/src/t35.c:235-239. -/
def mMuratec45 : List Machine := [
  ⟨10, [0xF4, 0x91, 0xFF, 0xFF, 0xFF, 0x42, 0x2A, 0xBC, 0x01, 0x57], "M4700"⟩]

/-- `Muratec48`: /repo/src/t35.c:242-246. -/
def mMuratec48 : List Machine := [
  ⟨3, [0x53, 0x53, 0x61], "M620"⟩]

/-- `vendor_00`: /repo/src/t35.c:278-345. -/
def vendor_00 : List Maker := [
  ⟨[0x00, 0x00], 2, some "Unknown - indeterminate", []⟩,
  ⟨[0x00, 0x01], 2, some "Anritsu", []⟩,
  ⟨[0x00, 0x02], 2, some "Nippon Telephone", []⟩,
  ⟨[0x00, 0x05], 2, some "Mitsuba Electric", []⟩,
  ⟨[0x00, 0x06], 2, some "Master Net", []⟩,
  ⟨[0x00, 0x09], 2, some "Xerox/Toshiba", mXerox⟩,
  ⟨[0x00, 0x0A], 2, some "Kokusai", []⟩,
  ⟨[0x00, 0x0D], 2, some "Logic System International", []⟩,
  ⟨[0x00, 0x0E], 2, some "Panasonic", mPanasonic0E⟩,
  ⟨[0x00, 0x11], 2, some "Canon", mCanon⟩,
  ⟨[0x00, 0x15], 2, some "Toyotsushen Machinery", []⟩,
  ⟨[0x00, 0x16], 2, some "System House Mind", []⟩,
  ⟨[0x00, 0x19], 2, some "Xerox", []⟩,
  ⟨[0x00, 0x1D], 2, some "Hitachi Software", []⟩,
  ⟨[0x00, 0x21], 2, some "OKI Electric/Lanier", []⟩,
  ⟨[0x00, 0x25], 2, some "Ricoh", mRicoh⟩,
  ⟨[0x00, 0x26], 2, some "Konica", []⟩,
  ⟨[0x00, 0x29], 2, some "Japan Wireless", []⟩,
  ⟨[0x00, 0x2D], 2, some "Sony", []⟩,
  ⟨[0x00, 0x31], 2, some "Sharp/Olivetti", mSharp⟩,
  ⟨[0x00, 0x35], 2, some "Kogyu", []⟩,
  ⟨[0x00, 0x36], 2, some "Japan Telecom", []⟩,
  ⟨[0x00, 0x3D], 2, some "IBM Japan", []⟩,
  ⟨[0x00, 0x39], 2, some "Panasonic", []⟩,
  ⟨[0x00, 0x41], 2, some "Swasaki Communication", []⟩,
  ⟨[0x00, 0x45], 2, some "Muratec", mMuratec45⟩,
  ⟨[0x00, 0x46], 2, some "Pheonix", []⟩,
  ⟨[0x00, 0x48], 2, some "Muratec", mMuratec48⟩,
  ⟨[0x00, 0x49], 2, some "Japan Electric", []⟩,
  ⟨[0x00, 0x4D], 2, some "Okura Electric", []⟩,
  ⟨[0x00, 0x51], 2, some "Sanyo", mSanyo⟩,
  ⟨[0x00, 0x55], 2, some "Unknown - Japan 55", []⟩,
  ⟨[0x00, 0x56], 2, some "Brother", mBrother⟩,
  ⟨[0x00, 0x59], 2, some "Fujitsu", []⟩,
  ⟨[0x00, 0x5D], 2, some "Kuoni", []⟩,
  ⟨[0x00, 0x61], 2, some "Casio", []⟩,
  ⟨[0x00, 0x65], 2, some "Tateishi Electric", []⟩,
  ⟨[0x00, 0x66], 2, some "Utax/Mita", []⟩,
  ⟨[0x00, 0x69], 2, some "Hitachi Production", []⟩,
  ⟨[0x00, 0x6D], 2, some "Hitachi Telecom", []⟩,
  ⟨[0x00, 0x71], 2, some "Tamura Electric Works", []⟩,
  ⟨[0x00, 0x75], 2, some "Tokyo Electric Corp.", []⟩,
  ⟨[0x00, 0x76], 2, some "Advance", []⟩,
  ⟨[0x00, 0x79], 2, some "Panasonic", mPanasonic79⟩,
  ⟨[0x00, 0x7D], 2, some "Seiko", []⟩,
  ⟨[0x08, 0x00], 2, some "Daiko", []⟩,
  ⟨[0x10, 0x00], 2, some "Funai Electric", []⟩,
  ⟨[0x20, 0x00], 2, some "Eagle System", []⟩,
  ⟨[0x30, 0x00], 2, some "Nippon Business Systems", []⟩,
  ⟨[0x40, 0x00], 2, some "Comtron", []⟩,
  ⟨[0x48, 0x00], 2, some "Cosmo Consulting", []⟩,
  ⟨[0x50, 0x00], 2, some "Orion Electric", []⟩,
  ⟨[0x60, 0x00], 2, some "Nagano Nippon", []⟩,
  ⟨[0x70, 0x00], 2, some "Kyocera", []⟩,
  ⟨[0x80, 0x00], 2, some "Kanda Networks", []⟩,
  ⟨[0x88, 0x00], 2, some "Soft Front", []⟩,
  ⟨[0x90, 0x00], 2, some "Arctic", []⟩,
  ⟨[0xA0, 0x00], 2, some "Nakushima", []⟩,
  ⟨[0xB0, 0x00], 2, some "Minolta", []⟩,
  ⟨[0xC0, 0x00], 2, some "Tohoku Pioneer", []⟩,
  ⟨[0xD0, 0x00], 2, some "USC", []⟩,
  ⟨[0xE0, 0x00], 2, some "Hiboshi", []⟩,
  ⟨[0xF0, 0x00], 2, some "Sumitomo Electric", []⟩]

/-- `vendor_20`: /repo/src/t35.c:347-369. -/
def vendor_20 : List Maker := [
  ⟨[0x09], 1, some "ITK Institut für Telekommunikation GmbH & Co KG", []⟩,
  ⟨[0x11], 1, some "Dr. Neuhaus Mikroelektronik", []⟩,
  ⟨[0x21], 1, some "ITO Communication", []⟩,
  ⟨[0x31], 1, some "mbp Kommunikationssysteme GmbH", []⟩,
  ⟨[0x41], 1, some "Siemens", []⟩,
  ⟨[0x42], 1, some "Deutsche Telekom AG", []⟩,
  ⟨[0x51], 1, some "mps Software", []⟩,
  ⟨[0x61], 1, some "Hauni Elektronik", []⟩,
  ⟨[0x71], 1, some "Digitronic computersysteme gmbh", []⟩,
  ⟨[0x81, 0x00], 2, some "Innovaphone GmbH", []⟩,
  ⟨[0x81, 0x40], 2, some "TEDAS Gesellschaft für Telekommunikations-, Daten- und Audiosysteme mbH", []⟩,
  ⟨[0x81, 0x80], 2, some "AVM Audiovisuelles Marketing und Computersysteme GmbH", []⟩,
  ⟨[0x81, 0xC0], 2, some "EICON Technology Research GmbH", []⟩,
  ⟨[0xB1], 1, some "Schneider Rundfunkwerke AG", []⟩,
  ⟨[0xC2], 1, some "Deutsche Telekom AG", []⟩,
  ⟨[0xD1], 1, some "Ferrari electronik GmbH", []⟩,
  ⟨[0xF1], 1, some "DeTeWe - Deutsche Telephonwerke AG & Co", []⟩,
  ⟨[0xFF], 1, some "Germany Regional Code", []⟩]

/-- `vendor_61`: /repo/src/t35.c:371-376. -/
def vendor_61 : List Maker := [
  ⟨[0x00, 0x7A], 2, some "Xerox", []⟩]

/-- `vendor_64`: /repo/src/t35.c:378-386. -/
def vendor_64 : List Maker := [
  ⟨[0x00, 0x00], 2, some "Unknown - China 00 00", []⟩,
  ⟨[0x01, 0x00], 2, some "Unknown - China 01 00", []⟩,
  ⟨[0x01, 0x01], 2, some "Unknown - China 01 01", []⟩,
  ⟨[0x01, 0x02], 2, some "Unknown - China 01 02", []⟩]

/-- `vendor_86`: /repo/src/t35.c:388-424. -/
def vendor_86 : List Maker := [
  ⟨[0x00, 0x02], 2, some "Unknown - Korea 02", []⟩,
  ⟨[0x00, 0x06], 2, some "Unknown - Korea 06", []⟩,
  ⟨[0x00, 0x08], 2, some "Unknown - Korea 08", []⟩,
  ⟨[0x00, 0x0A], 2, some "Unknown - Korea 0A", []⟩,
  ⟨[0x00, 0x0E], 2, some "Unknown - Korea 0E", []⟩,
  ⟨[0x00, 0x10], 2, some "Samsung", []⟩,
  ⟨[0x00, 0x11], 2, some "Unknown - Korea 11", []⟩,
  ⟨[0x00, 0x16], 2, some "Samsung", mSamsung16⟩,
  ⟨[0x00, 0x1A], 2, some "Unknown - Korea 1A", []⟩,
  ⟨[0x00, 0x40], 2, some "Unknown - Korea 40", []⟩,
  ⟨[0x00, 0x48], 2, some "Unknown - Korea 48", []⟩,
  ⟨[0x00, 0x52], 2, some "Unknown - Korea 52", []⟩,
  ⟨[0x00, 0x5A], 2, some "Samsung", mSamsung5A⟩,
  ⟨[0x00, 0x5E], 2, some "Unknown - Korea 5E", []⟩,
  ⟨[0x00, 0x66], 2, some "Unknown - Korea 66", []⟩,
  ⟨[0x00, 0x6E], 2, some "Unknown - Korea 6E", []⟩,
  ⟨[0x00, 0x82], 2, some "Unknown - Korea 82", []⟩,
  ⟨[0x00, 0x88], 2, some "Unknown - Korea 88", []⟩,
  ⟨[0x00, 0x8A], 2, some "Unknown - Korea 8A", []⟩,
  ⟨[0x00, 0x8C], 2, some "Samsung", mSamsung8C⟩,
  ⟨[0x00, 0x92], 2, some "Unknown - Korea 92", []⟩,
  ⟨[0x00, 0x98], 2, some "Samsung", []⟩,
  ⟨[0x00, 0xA2], 2, some "Samsung", mSamsungA2⟩,
  ⟨[0x00, 0xA4], 2, some "Unknown - Korea A4", []⟩,
  ⟨[0x00, 0xC2], 2, some "Samsung", []⟩,
  ⟨[0x00, 0xC9], 2, some "Unknown - Korea C9", []⟩,
  ⟨[0x00, 0xCC], 2, some "Unknown - Korea CC", []⟩,
  ⟨[0x00, 0xD2], 2, some "Unknown - Korea D2", []⟩,
  ⟨[0x00, 0xDA], 2, some "Xerox", mXeroxDA⟩,
  ⟨[0x00, 0xE2], 2, some "Unknown - Korea E2", []⟩,
  ⟨[0x00, 0xEC], 2, some "Unknown - Korea EC", []⟩,
  ⟨[0x00, 0xEE], 2, some "Unknown - Korea EE", []⟩]

/-- `vendor_ad`: /repo/src/t35.c:426-443. -/
def vendor_ad : List Maker := [
  ⟨[0x00, 0x00], 2, some "Pitney Bowes", mPitneyBowes⟩,
  ⟨[0x00, 0x0C], 2, some "Dialogic", mDialogic⟩,
  ⟨[0x00, 0x15], 2, some "Lexmark", mLexmark⟩,
  ⟨[0x00, 0x16], 2, some "JetFax", mJetFax⟩,
  ⟨[0x00, 0x24], 2, some "Octel", []⟩,
  ⟨[0x00, 0x36], 2, some "HP", mHP⟩,
  ⟨[0x00, 0x42], 2, some "FaxTalk", []⟩,
  ⟨[0x00, 0x44], 2, none, []⟩,
  ⟨[0x00, 0x46], 2, some "BrookTrout", []⟩,
  ⟨[0x00, 0x51], 2, some "Telogy Networks", []⟩,
  ⟨[0x00, 0x55], 2, some "HylaFAX", []⟩,
  ⟨[0x00, 0x5C], 2, some "IBM", []⟩,
  ⟨[0x00, 0x98], 2, some "Unknown - USA 98", []⟩]

/-- `vendor_b4`: /repo/src/t35.c:445-456. -/
def vendor_b4 : List Maker := [
  ⟨[0x00, 0xB0], 2, some "DCE", []⟩,
  ⟨[0x00, 0xB1], 2, some "Hasler", []⟩,
  ⟨[0x00, 0xB2], 2, some "Interquad", []⟩,
  ⟨[0x00, 0xB3], 2, some "Comwave", []⟩,
  ⟨[0x00, 0xB4], 2, some "Iconographic", []⟩,
  ⟨[0x00, 0xB5], 2, some "Wordcraft", []⟩,
  ⟨[0x00, 0xB6], 2, some "Acorn", []⟩]

/-- `vendor_b5`: /repo/src/t35.c:458-528. -/
def vendor_b5 : List Maker := [
  ⟨[0x00, 0x01], 2, some "Picturetel", []⟩,
  ⟨[0x00, 0x20], 2, some "Conexant", []⟩,
  ⟨[0x00, 0x22], 2, some "Comsat", []⟩,
  ⟨[0x00, 0x24], 2, some "Octel", []⟩,
  ⟨[0x00, 0x26], 2, some "ROLM", []⟩,
  ⟨[0x00, 0x28], 2, some "SOFNET", []⟩,
  ⟨[0x00, 0x29], 2, some "TIA TR-29 Committee", []⟩,
  ⟨[0x00, 0x2A], 2, some "STF Tech", []⟩,
  ⟨[0x00, 0x2C], 2, some "HKB", []⟩,
  ⟨[0x00, 0x2E], 2, some "Delrina", []⟩,
  ⟨[0x00, 0x30], 2, some "Dialogic", mDialogic⟩,
  ⟨[0x00, 0x32], 2, some "Applied Synergy", []⟩,
  ⟨[0x00, 0x34], 2, some "Syncro Development", []⟩,
  ⟨[0x00, 0x36], 2, some "Genoa", []⟩,
  ⟨[0x00, 0x38], 2, some "Texas Instruments", []⟩,
  ⟨[0x00, 0x3A], 2, some "IBM", []⟩,
  ⟨[0x00, 0x3C], 2, some "ViaSat", []⟩,
  ⟨[0x00, 0x3E], 2, some "Ericsson", []⟩,
  ⟨[0x00, 0x42], 2, some "Bogosian", []⟩,
  ⟨[0x00, 0x44], 2, some "Adobe", []⟩,
  ⟨[0x00, 0x46], 2, some "Fremont Communications", []⟩,
  ⟨[0x00, 0x48], 2, some "Hayes", []⟩,
  ⟨[0x00, 0x4A], 2, some "Lucent", []⟩,
  ⟨[0x00, 0x4C], 2, some "Data Race", []⟩,
  ⟨[0x00, 0x4E], 2, some "TRW", []⟩,
  ⟨[0x00, 0x52], 2, some "Audiofax", []⟩,
  ⟨[0x00, 0x54], 2, some "Computer Automation", []⟩,
  ⟨[0x00, 0x56], 2, some "Serca", []⟩,
  ⟨[0x00, 0x58], 2, some "Octocom", []⟩,
  ⟨[0x00, 0x5C], 2, some "Power Solutions", []⟩,
  ⟨[0x00, 0x5A], 2, some "Digital Sound", []⟩,
  ⟨[0x00, 0x5E], 2, some "Pacific Data", []⟩,
  ⟨[0x00, 0x60], 2, some "Commetrex", []⟩,
  ⟨[0x00, 0x62], 2, some "BrookTrout", []⟩,
  ⟨[0x00, 0x64], 2, some "Gammalink", []⟩,
  ⟨[0x00, 0x66], 2, some "Castelle", []⟩,
  ⟨[0x00, 0x68], 2, some "Hybrid Fax", []⟩,
  ⟨[0x00, 0x6A], 2, some "Omnifax", []⟩,
  ⟨[0x00, 0x6C], 2, some "HP", []⟩,
  ⟨[0x00, 0x6E], 2, some "Microsoft", []⟩,
  ⟨[0x00, 0x72], 2, some "Speaking Devices", []⟩,
  ⟨[0x00, 0x74], 2, some "Compaq", []⟩,
  ⟨[0x00, 0x76], 2, some "Microsoft", []⟩,
  ⟨[0x00, 0x78], 2, some "Cylink", []⟩,
  ⟨[0x00, 0x7A], 2, some "Pitney Bowes", []⟩,
  ⟨[0x00, 0x7C], 2, some "Digiboard", []⟩,
  ⟨[0x00, 0x7E], 2, some "Codex", []⟩,
  ⟨[0x00, 0x82], 2, some "Wang Labs", []⟩,
  ⟨[0x00, 0x84], 2, some "Netexpress Communications", []⟩,
  ⟨[0x00, 0x86], 2, some "Cable-Sat", []⟩,
  ⟨[0x00, 0x88], 2, some "MFPA", []⟩,
  ⟨[0x00, 0x8A], 2, some "Telogy Networks", []⟩,
  ⟨[0x00, 0x8E], 2, some "Telecom Multimedia Systems", []⟩,
  ⟨[0x00, 0x8C], 2, some "AT&T", []⟩,
  ⟨[0x00, 0x92], 2, some "Nuera", []⟩,
  ⟨[0x00, 0x94], 2, some "K56flex", []⟩,
  ⟨[0x00, 0x96], 2, some "MiBridge", []⟩,
  ⟨[0x00, 0x98], 2, some "Xerox", []⟩,
  ⟨[0x00, 0x9A], 2, some "Fujitsu", []⟩,
  ⟨[0x00, 0x9B], 2, some "Fujitsu", []⟩,
  ⟨[0x00, 0x9C], 2, some "Natural Microsystems", []⟩,
  ⟨[0x00, 0x9E], 2, some "CopyTele", []⟩,
  ⟨[0x00, 0xA2], 2, some "Murata", []⟩,
  ⟨[0x00, 0xA4], 2, some "Lanier", []⟩,
  ⟨[0x00, 0xA6], 2, some "Qualcomm", []⟩,
  ⟨[0x00, 0xAA], 2, some "HylaFAX", []⟩]

/-- `vendor_bc`: /repo/src/t35.c:530-535. -/
def vendor_bc : List Maker := [
  ⟨[0x53, 0x01], 2, some "Minolta", []⟩]

/-- `t35_country_codes`: /repo/src/t35.c:537-794. -/
def countries : List Country := [
  ⟨some "Japan", vendor_00⟩,
  ⟨some "Albania", []⟩,
  ⟨some "Algeria", []⟩,
  ⟨some "American Samoa", []⟩,
  ⟨some "Germany", []⟩,
  ⟨some "Anguilla", []⟩,
  ⟨some "Antigua and Barbuda", []⟩,
  ⟨some "Argentina", []⟩,
  ⟨some "Ascension (see S. Helena)", []⟩,
  ⟨some "Australia", []⟩,
  ⟨some "Austria", []⟩,
  ⟨some "Bahamas", []⟩,
  ⟨some "Bahrain", []⟩,
  ⟨some "Bangladesh", []⟩,
  ⟨some "Barbados", []⟩,
  ⟨some "Belgium", []⟩,
  ⟨some "Belize", []⟩,
  ⟨some "Benin (Republic of)", []⟩,
  ⟨some "Bermudas", []⟩,
  ⟨some "Bhutan (Kingdom of)", []⟩,
  ⟨some "Bolivia", []⟩,
  ⟨some "Botswana", []⟩,
  ⟨some "Brazil", []⟩,
  ⟨some "British Antarctic Territory", []⟩,
  ⟨some "British Indian Ocean Territory", []⟩,
  ⟨some "British Virgin Islands", []⟩,
  ⟨some "Brunei Darussalam", []⟩,
  ⟨some "Bulgaria", []⟩,
  ⟨some "Myanmar (Union of)", []⟩,
  ⟨some "Burundi", []⟩,
  ⟨some "Byelorussia", []⟩,
  ⟨some "Cameroon", []⟩,
  ⟨some "Canada", vendor_20⟩,
  ⟨some "Cape Verde", []⟩,
  ⟨some "Cayman Islands", []⟩,
  ⟨some "Central African Republic", []⟩,
  ⟨some "Chad", []⟩,
  ⟨some "Chile", []⟩,
  ⟨some "China", []⟩,
  ⟨some "Colombia", []⟩,
  ⟨some "Comoros", []⟩,
  ⟨some "Congo", []⟩,
  ⟨some "Cook Islands", []⟩,
  ⟨some "Costa Rica", []⟩,
  ⟨some "Cuba", []⟩,
  ⟨some "Cyprus", []⟩,
  ⟨some "Czech and Slovak Federal Republic", []⟩,
  ⟨some "Cambodia", []⟩,
  ⟨some "Democratic People's Republic of Korea", []⟩,
  ⟨some "Denmark", []⟩,
  ⟨some "Djibouti", []⟩,
  ⟨some "Dominican Republic", []⟩,
  ⟨some "Dominica", []⟩,
  ⟨some "Ecuador", []⟩,
  ⟨some "Egypt", []⟩,
  ⟨some "El Salvador", []⟩,
  ⟨some "Equatorial Guinea", []⟩,
  ⟨some "Ethiopia", []⟩,
  ⟨some "Falkland Islands", []⟩,
  ⟨some "Fiji", []⟩,
  ⟨some "Finland", []⟩,
  ⟨some "France", []⟩,
  ⟨some "French Polynesia", []⟩,
  ⟨some "French Southern and Antarctic Lands", []⟩,
  ⟨some "Gabon", []⟩,
  ⟨some "Gambia", []⟩,
  ⟨some "Germany (Federal Republic of)", []⟩,
  ⟨some "Angola", []⟩,
  ⟨some "Ghana", []⟩,
  ⟨some "Gibraltar", []⟩,
  ⟨some "Greece", []⟩,
  ⟨some "Grenada", []⟩,
  ⟨some "Guam", []⟩,
  ⟨some "Guatemala", []⟩,
  ⟨some "Guernsey", []⟩,
  ⟨some "Guinea", []⟩,
  ⟨some "Guinea-Bissau", []⟩,
  ⟨some "Guayana", []⟩,
  ⟨some "Haiti", []⟩,
  ⟨some "Honduras", []⟩,
  ⟨some "Hong Kong", []⟩,
  ⟨some "Hungary (Republic of)", []⟩,
  ⟨some "Iceland", []⟩,
  ⟨some "India", []⟩,
  ⟨some "Indonesia", []⟩,
  ⟨some "Iran (Islamic Republic of)", []⟩,
  ⟨some "Iraq", []⟩,
  ⟨some "Ireland", []⟩,
  ⟨some "Israel", []⟩,
  ⟨some "Italy", []⟩,
  ⟨some "Cote d'Ivoire", []⟩,
  ⟨some "Jamaica", []⟩,
  ⟨some "Afghanistan", []⟩,
  ⟨some "Jersey", []⟩,
  ⟨some "Jordan", []⟩,
  ⟨some "Kenya", []⟩,
  ⟨some "Kiribati", []⟩,
  ⟨some "Korea (Republic of)", vendor_61⟩,
  ⟨some "Kuwait", []⟩,
  ⟨some "Lao (People's Democratic Republic)", []⟩,
  ⟨some "Lebanon", vendor_64⟩,
  ⟨some "Lesotho", []⟩,
  ⟨some "Liberia", []⟩,
  ⟨some "Libya", []⟩,
  ⟨some "Liechtenstein", []⟩,
  ⟨some "Luxembourg", []⟩,
  ⟨some "Macau", []⟩,
  ⟨some "Madagascar", []⟩,
  ⟨some "Malaysia", []⟩,
  ⟨some "Malawi", []⟩,
  ⟨some "Maldives", []⟩,
  ⟨some "Mali", []⟩,
  ⟨some "Malta", []⟩,
  ⟨some "Mauritania", []⟩,
  ⟨some "Mauritius", []⟩,
  ⟨some "Mexico", []⟩,
  ⟨some "Monaco", []⟩,
  ⟨some "Mongolia", []⟩,
  ⟨some "Montserrat", []⟩,
  ⟨some "Morocco", []⟩,
  ⟨some "Mozambique", []⟩,
  ⟨some "Nauru", []⟩,
  ⟨some "Nepal", []⟩,
  ⟨some "Netherlands", []⟩,
  ⟨some "Netherlands Antilles", []⟩,
  ⟨some "New Caledonia", []⟩,
  ⟨some "New Zealand", []⟩,
  ⟨some "Nicaragua", []⟩,
  ⟨some "Niger", []⟩,
  ⟨some "Nigeria", []⟩,
  ⟨some "Norway", []⟩,
  ⟨some "Oman", []⟩,
  ⟨some "Pakistan", []⟩,
  ⟨some "Panama", []⟩,
  ⟨some "Papua New Guinea", vendor_86⟩,
  ⟨some "Paraguay", []⟩,
  ⟨some "Peru", []⟩,
  ⟨some "Philippines", []⟩,
  ⟨some "Poland (Republic of)", []⟩,
  ⟨some "Portugal", []⟩,
  ⟨some "Puerto Rico", []⟩,
  ⟨some "Qatar", []⟩,
  ⟨some "Romania", []⟩,
  ⟨some "Rwanda", []⟩,
  ⟨some "Saint Kitts and Nevis", []⟩,
  ⟨some "Saint Croix", []⟩,
  ⟨some "Saint Helena and Ascension", []⟩,
  ⟨some "Saint Lucia", []⟩,
  ⟨some "San Marino", []⟩,
  ⟨some "Saint Thomas", []⟩,
  ⟨some "Sao Tome and Principe", []⟩,
  ⟨some "Saint Vincent and the Grenadines", []⟩,
  ⟨some "Saudi Arabia", []⟩,
  ⟨some "Senegal", []⟩,
  ⟨some "Seychelles", []⟩,
  ⟨some "Sierra Leone", []⟩,
  ⟨some "Singapore", []⟩,
  ⟨some "Solomon Islands", []⟩,
  ⟨some "Somalia", []⟩,
  ⟨some "South Africa", []⟩,
  ⟨some "Spain", []⟩,
  ⟨some "Sri Lanka", []⟩,
  ⟨some "Sudan", []⟩,
  ⟨some "Suriname", []⟩,
  ⟨some "Swaziland", []⟩,
  ⟨some "Sweden", []⟩,
  ⟨some "Switzerland", []⟩,
  ⟨some "Syria", []⟩,
  ⟨some "Tanzania", []⟩,
  ⟨some "Thailand", []⟩,
  ⟨some "Togo", []⟩,
  ⟨some "Tonga", []⟩,
  ⟨some "Trinidad and Tobago", []⟩,
  ⟨some "Tunisia", vendor_ad⟩,
  ⟨some "Turkey", []⟩,
  ⟨some "Turks and Caicos Islands", []⟩,
  ⟨some "Tuvalu", []⟩,
  ⟨some "Uganda", []⟩,
  ⟨some "Ukraine", []⟩,
  ⟨some "United Arab Emirates", []⟩,
  ⟨some "United Kingdom", vendor_b4⟩,
  ⟨some "United States", vendor_b5⟩,
  ⟨some "Burkina Faso", []⟩,
  ⟨some "Uruguay", []⟩,
  ⟨some "U.S.S.R.", []⟩,
  ⟨some "Vanuatu", []⟩,
  ⟨some "Vatican City State", []⟩,
  ⟨some "Venezuela", []⟩,
  ⟨some "Vietnam", vendor_bc⟩,
  ⟨some "Wallis and Futuna", []⟩,
  ⟨some "Western Samoa", []⟩,
  ⟨some "Yemen (Republic of)", []⟩,
  ⟨some "Yemen (Republic of)", []⟩,
  ⟨some "Yugoslavia", []⟩,
  ⟨some "Zaire", []⟩,
  ⟨some "Zambia", []⟩,
  ⟨some "Zimbabwe", []⟩,
  ⟨some "Slovakia", []⟩,
  ⟨some "Slovenia", []⟩,
  ⟨none, []⟩,
  ⟨none, []⟩,
  ⟨none, []⟩,
  ⟨none, []⟩,
  ⟨none, []⟩,
  ⟨none, []⟩,
  ⟨none, []⟩,
  ⟨none, []⟩,
  ⟨none, []⟩,
  ⟨none, []⟩,
  ⟨none, []⟩,
  ⟨none, []⟩,
  ⟨none, []⟩,
  ⟨none, []⟩,
  ⟨none, []⟩,
  ⟨none, []⟩,
  ⟨none, []⟩,
  ⟨none, []⟩,
  ⟨none, []⟩,
  ⟨none, []⟩,
  ⟨none, []⟩,
  ⟨none, []⟩,
  ⟨none, []⟩,
  ⟨none, []⟩,
  ⟨none, []⟩,
  ⟨none, []⟩,
  ⟨none, []⟩,
  ⟨none, []⟩,
  ⟨none, []⟩,
  ⟨none, []⟩,
  ⟨none, []⟩,
  ⟨none, []⟩,
  ⟨none, []⟩,
  ⟨none, []⟩,
  ⟨none, []⟩,
  ⟨none, []⟩,
  ⟨none, []⟩,
  ⟨none, []⟩,
  ⟨none, []⟩,
  ⟨none, []⟩,
  ⟨none, []⟩,
  ⟨none, []⟩,
  ⟨none, []⟩,
  ⟨none, []⟩,
  ⟨none, []⟩,
  ⟨none, []⟩,
  ⟨none, []⟩,
  ⟨none, []⟩,
  ⟨some "Lithuania", []⟩,
  ⟨some "Latvia", []⟩,
  ⟨some "Estonia", []⟩,
  ⟨some "US Virgin Islands", []⟩,
  ⟨none, []⟩,
  ⟨none, []⟩,
  ⟨some "(Universal)", []⟩,
  ⟨some "Taiwan", []⟩]

end T35
